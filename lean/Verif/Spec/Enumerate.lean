import Verif.Spec.Descriptor
import Verif.Spec.Client
/-!
# Specification: what a USB host learns from descriptors

A reader of device and configuration descriptors, written from USB 2.0 chapter 9 with nothing but
byte offsets.  Blocks that are neither interface nor endpoint descriptors belong to the interface or
endpoint descriptor they follow.
-/

namespace Usbip.Spec

open Usbip

/-- The byte at an offset. -/
def byteAt (b : Bytes) (i : Nat) : Nat := (b[i]?.getD 0).toNat

/-- The little-endian 16-bit number at an offset. -/
def wordAt (b : Bytes) (i : Nat) : Nat := byteAt b i + 256 * byteAt b (i + 1)

structure EpView where
  address : Nat
  attributes : Nat
  maxPacketSize : Nat
  interval : Nat
  extra : List Bytes
  deriving DecidableEq, Repr

structure IfView where
  number : Nat
  alternate : Nat
  ifClass : Nat
  subclass : Nat
  protocol : Nat
  string : Nat
  extra : List Bytes
  endpoints : List EpView
  deriving DecidableEq, Repr

structure CfgView where
  value : Nat
  string : Nat
  attributes : Nat
  maxPower : Nat
  interfaces : List IfView
  deriving DecidableEq, Repr

structure DevView where
  bcdUsb : Nat
  devClass : Nat
  subclass : Nat
  protocol : Nat
  maxPacketSize0 : Nat
  idVendor : Nat
  idProduct : Nat
  bcdDevice : Nat
  manufacturer : Nat
  product : Nat
  serial : Nat
  numConfigurations : Nat
  deriving DecidableEq, Repr

/-- Table 9-8. -/
def readDevice (b : Bytes) : Option DevView :=
  if b.length = 18 ∧ byteAt b 0 = 18 ∧ byteAt b 1 = 1 then
    some { bcdUsb := wordAt b 2, devClass := byteAt b 4, subclass := byteAt b 5, protocol := byteAt b 6
           maxPacketSize0 := byteAt b 7, idVendor := wordAt b 8, idProduct := wordAt b 10
           bcdDevice := wordAt b 12, manufacturer := byteAt b 14, product := byteAt b 15
           serial := byteAt b 16, numConfigurations := byteAt b 17 }
  else none

/-- What has been read of the tail of a configuration: blocks not yet assigned, endpoints not yet
assigned, interfaces. -/
abbrev Partial := List Bytes × List EpView × List IfView

/-- One more block, from the end: tables 9-12 and 9-13.  An interface descriptor must announce its
endpoints. -/
def readBlock (b : Bytes) (acc : Option Partial) : Option Partial := do
  let (extra, eps, ifs) ← acc
  if byteAt b 1 = 5 then
    if 7 ≤ b.length then
      some ([], { address := byteAt b 2, attributes := byteAt b 3, maxPacketSize := wordAt b 4
                  interval := byteAt b 6, extra } :: eps, ifs)
    else none
  else if byteAt b 1 = 4 then
    if 9 ≤ b.length ∧ byteAt b 4 = eps.length then
      some ([], [], { number := byteAt b 2, alternate := byteAt b 3, ifClass := byteAt b 5
                      subclass := byteAt b 6, protocol := byteAt b 7, string := byteAt b 8
                      extra, endpoints := eps } :: ifs)
    else none
  else some (b :: extra, eps, ifs)

/-- Table 9-10: the header must announce its own total length and the number of interfaces; nothing
may come between it and the first interface. -/
def readConfig (bs : Bytes) : Option CfgView := do
  match ← walk bs with
  | [] => none
  | hdr :: blocks =>
    let (extra, eps, ifs) ← blocks.foldr readBlock (some ([], [], []))
    if hdr.length = 9 ∧ byteAt hdr 1 = 2 ∧ wordAt hdr 2 = bs.length ∧ byteAt hdr 4 = ifs.length ∧
        extra = [] ∧ eps = [] then
      some { value := byteAt hdr 5, string := byteAt hdr 6, attributes := byteAt hdr 7
             maxPower := byteAt hdr 8, interfaces := ifs }
    else none

/-! What the host should learn. -/

def epView (e : Endpoint) : EpView :=
  ⟨e.address.toNat, e.attributes.toNat, e.maxPacketSize.toNat, e.interval.toNat, []⟩

def ifView (i : Nat) (f : Iface) : IfView :=
  ⟨i, 0, f.interfaceClass.toNat, f.interfaceSubclass.toNat, f.interfaceProtocol.toNat,
   f.stringInterface.toNat, (walk f.classSpecificDescriptor).getD [], f.endpoints.map epView⟩

def ifViews : Nat → List Iface → List IfView
  | _, [] => []
  | i, f :: fs => ifView i f :: ifViews (i + 1) fs

def cfgView (d : Device) : CfgView :=
  ⟨d.configurationValue.toNat, d.stringConfiguration.toNat, 0x80, 50, ifViews 0 d.interfaces⟩

def devView (d : Device) : DevView where
  bcdUsb := d.usbVersion.major.toNat * 256 + d.usbVersion.minor.toNat
  devClass := d.deviceClass.toNat
  subclass := d.deviceSubclass.toNat
  protocol := d.deviceProtocol.toNat
  maxPacketSize0 := d.ep0In.maxPacketSize.toNat % 256
  idVendor := d.vendorId.toNat
  idProduct := d.productId.toNat
  bcdDevice := d.deviceBcd.major.toNat * 256 + d.deviceBcd.minor.toNat
  manufacturer := d.stringManufacturer.toNat
  product := d.stringProduct.toNat
  serial := d.stringSerial.toNat
  numConfigurations := d.numConfigurations.toNat

/-- A device whose tree fits the descriptor fields, and whose class specific blocks are blocks and
do not pretend to be interface or endpoint descriptors. -/
structure Describable (d : Device) : Prop where
  interfaces : d.interfaces.length ≤ 255
  endpoints : ∀ f ∈ d.interfaces, f.endpoints.length ≤ 255
  total : 9 + (allBlocks 0 d.interfaces).flatten.length < 65536
  extra : ∀ f ∈ d.interfaces, ∃ bls, walk f.classSpecificDescriptor = some bls ∧
    ∀ b ∈ bls, byteAt b 1 ≠ 4 ∧ byteAt b 1 ≠ 5

/-- The enumeration requests on endpoint zero. -/
def askDescriptor (seq : UInt32) (type index : UInt8) (lang wLength : UInt16) : Cmd :=
  .submit ⟨1, seq, 0, 1, 0⟩ 0 wLength.toUInt32 0 0 0
    [0x80, 6, index, type, UInt8.ofNat (lang.toNat % 256), UInt8.ofNat (lang.toNat / 256),
     UInt8.ofNat (wLength.toNat % 256), UInt8.ofNat (wLength.toNat / 256)] [] []

/-- The data of a successful submit reply. -/
def dataOf : Reply → Option Bytes
  | .submit _ status _ _ _ _ data _ => if status = 0 then some data else none
  | _ => none

end Usbip.Spec
