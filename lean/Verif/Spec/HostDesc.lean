import Verif.Model.Host
import Verif.Spec.Descriptor
/-!
# Specification: the descriptors of a host device

What the host device itself answers to GET_DESCRIPTOR (USB 2.0 chapter 9), from the host's data only.
-/

namespace Usbip.Spec
open Usbip

/-- The host device's device descriptor (table 9-8). -/
def hostDeviceBlock (h : HostDevDesc) : Bytes :=
  [18, 1] ++ le h.bcdUsb.toNat ++ [h.cls, h.sub, h.proto, h.maxPacketSize] ++ le h.vendorId.toNat ++
  le h.productId.toNat ++ le h.bcdDevice.toNat ++
  [h.manufacturerIndex.getD 0, h.productIndex.getD 0, h.serialIndex.getD 0, h.numConfigurations]

/-- One endpoint descriptor and what follows it. -/
def hostEndpointBlocks (e : HostEp) : List Bytes :=
  ([7, 5, e.address, e.attributes] ++ le e.maxPacketSize.toNat ++ [e.interval]) :: (walk e.extra).getD []

/-- One alternate setting: interface descriptor, class-specific blocks, endpoints. -/
def hostSettingBlocks (f : HostIfDesc) : List Bytes :=
  [9, 4, f.number, f.setting, UInt8.ofNat f.endpoints.length, f.cls, f.sub, f.proto, f.stringIndex.getD 0]
    :: (walk f.extra).getD [] ++ f.endpoints.flatMap hostEndpointBlocks

/-- The blocks of the host device's configuration descriptor, `total` bytes in all: all alternate
settings of all interfaces. -/
def hostConfigBlocks (c : HostCfg) (total : Nat) : List Bytes :=
  ([9, 2] ++ le total ++ [UInt8.ofNat c.interfaces.length, c.value, c.stringIndex.getD 0, c.attributes,
    c.maxPower]) :: (walk c.extra).getD [] ++ (c.interfaces.flatMap (·.flatMap hostSettingBlocks))

/-- What of the interfaces a client is shown: of each interface the first alternate setting, under
its position as number and 0 as setting, with the endpoints changed by `ep` and the class-specific
blocks by `ex`. -/
def keptIfs (ep : HostEp → HostEp) (ex : Bytes → Bytes) : Nat → List (List HostIfDesc) → List (List HostIfDesc)
  | _, [] => []
  | i, alts :: rest =>
    (alts.take 1).map (fun f => { f with number := UInt8.ofNat i, setting := 0
                                         endpoints := f.endpoints.map ep, extra := ex f.extra })
      :: keptIfs ep ex (i + 1) rest

/-- What of the configuration a client is shown: bus powered, 100 mA, unnamed, nothing before the
first interface. -/
def kept (ep : HostEp → HostEp) (ex : Bytes → Bytes) (c : HostCfg) : HostCfg :=
  { value := c.value, attributes := 0x80, maxPower := 50, stringIndex := none, extra := []
    interfaces := keptIfs ep ex 0 c.interfaces }

/-- Kept of an endpoint by libusb sharing: all but the upper bits of `bmAttributes` and the blocks
after the endpoint descriptor. -/
def keptEp (e : HostEp) : HostEp :=
  { e with attributes := UInt8.ofNat (e.attributes.toNat % 4), extra := [] }

/-- Kept of an endpoint by nusb sharing: in addition, only bits 0..10 of the packet size. -/
def keptEpNusb (e : HostEp) : HostEp :=
  { keptEp e with maxPacketSize := UInt16.ofNat (e.maxPacketSize.toNat % 2048) }

/-- The numbers the USB/IP protocol uses for speeds (`enum usb_device_speed` of the Linux kernel,
src/consts.rs:5-14). -/
def speedCode : RusbSpeed → Nat
  | .unknown => 0 | .low => 1 | .full => 2 | .high => 3 | .super => 5 | .superPlus => 6

/-- The same for nusb. -/
def nusbSpeedCode : NusbSpeed → Nat
  | .low => 1 | .full => 2 | .high => 3 | .super => 5 | .superPlus => 6

/-- What a client makes of a 16-bit version whose digits were taken apart by libusb. -/
def keptVersion (v : Nat) : Nat := 256 * (10 * (v / 4096) + v / 256 % 16) + v / 16 % 16

end Usbip.Spec
