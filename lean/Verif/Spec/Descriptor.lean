import Verif.Model.Device
/-!
# Specification of USB descriptors

From USB 2.0 chapter 9, using only byte strings, numbers and the device's fields.
-/

namespace Usbip.Spec

open Usbip

/-- Two-byte little-endian encoding. -/
def le (v : Nat) : Bytes := [UInt8.ofNat (v % 256), UInt8.ofNat (v / 256)]

/-- Walk a descriptor sequence: every block starts with its own (non-zero) length.  `none` when
the last block runs past the end or a block has length zero. -/
def walk (bs : Bytes) : Option (List Bytes) :=
  match bs with
  | [] => some []
  | n :: rest =>
    if n.toNat = 0 ∨ rest.length < n.toNat - 1 then none
    else (walk (rest.drop (n.toNat - 1))).map ((n :: rest.take (n.toNat - 1)) :: ·)
termination_by bs.length
decreasing_by simp; omega

/-- The interface descriptor (table 9-12) of interface number `i`. -/
def interfaceBlock (i : Nat) (f : Iface) : Bytes :=
  [9, 4, UInt8.ofNat i, 0, UInt8.ofNat f.endpoints.length, f.interfaceClass, f.interfaceSubclass,
   f.interfaceProtocol, f.stringInterface]

/-- The endpoint descriptor (table 9-13). -/
def endpointBlock (e : Endpoint) : Bytes :=
  [7, 5, e.address, e.attributes] ++ le e.maxPacketSize.toNat ++ [e.interval]

/-- The configuration header (table 9-10): bus powered, 100 mA. -/
def configBlock (d : Device) (total : Nat) : Bytes :=
  [9, 2] ++ le total ++ [UInt8.ofNat d.interfaces.length, d.configurationValue,
    d.stringConfiguration, 0x80, 50]

/-- The blocks of one interface: its descriptor, its class specific blocks, its endpoints. -/
def interfaceBlocks (i : Nat) (f : Iface) : List Bytes :=
  [interfaceBlock i f] ++ (walk f.classSpecificDescriptor).getD [] ++ f.endpoints.map endpointBlock

/-- The blocks of all interfaces, numbered from `i`. -/
def allBlocks : Nat → List Iface → List Bytes
  | _, [] => []
  | i, f :: fs => interfaceBlocks i f ++ allBlocks (i + 1) fs

/-- The device descriptor (table 9-8). -/
def deviceBlock (d : Device) : Bytes :=
  [18, 1, d.usbVersion.minor, d.usbVersion.major, d.deviceClass, d.deviceSubclass, d.deviceProtocol,
   UInt8.ofNat d.ep0In.maxPacketSize.toNat] ++ le d.vendorId.toNat ++ le d.productId.toNat ++
  [d.deviceBcd.minor, d.deviceBcd.major, d.stringManufacturer, d.stringProduct, d.stringSerial,
   d.numConfigurations]

/-- The device qualifier (table 9-9). -/
def qualifierBlock (d : Device) : Bytes :=
  [10, 6, d.usbVersion.minor, d.usbVersion.major, d.deviceClass, d.deviceSubclass, d.deviceProtocol,
   UInt8.ofNat d.ep0In.maxPacketSize.toNat, d.numConfigurations, 0]

/-- An empty BOS descriptor. -/
def bosBlock : Bytes := [5, 15] ++ le 5 ++ [0]

/-! ## UTF-16 -/

/-- Number of UTF-16 code units of a text. -/
def units (s : Str) : Nat := (s.map (fun c => if c.toNat < 0x10000 then 1 else 2)).sum

/-- Pair up bytes as little-endian code units. -/
def unitsOfBytes : Bytes → Option (List Nat)
  | [] => some []
  | [_] => none
  | lo :: hi :: rest => (unitsOfBytes rest).map ((lo.toNat + 256 * hi.toNat) :: ·)

/-- Decode UTF-16 code units to code points; `none` on an unpaired surrogate. -/
def decodeUtf16 : List Nat → Option (List Nat)
  | [] => some []
  | u :: rest =>
    if 0xD800 ≤ u ∧ u < 0xDC00 then
      match rest with
      | v :: rest =>
        if 0xDC00 ≤ v ∧ v < 0xE000 then
          (decodeUtf16 rest).map ((0x10000 + (u - 0xD800) * 0x400 + (v - 0xDC00)) :: ·)
        else none
      | [] => none
    else if 0xDC00 ≤ u ∧ u < 0xE000 then none
    else (decodeUtf16 rest).map (u :: ·)

/-- A USB string descriptor (table 9-16) and the text (code points) it carries. -/
def decodeStringDescriptor (bs : Bytes) : Option (List Nat) :=
  match bs with
  | n :: t :: rest =>
    if n.toNat = bs.length ∧ t.toNat = 3 then (unitsOfBytes rest).bind decodeUtf16 else none
  | _ => none

/-- The SETUP packet of GET_DESCRIPTOR(type, index) to the device. -/
def getDescriptorSetup (type index : UInt8) (lang wLength : UInt16) : SetupPacket :=
  { requestType := 0x80, request := 6, value := UInt16.ofNat (type.toNat * 256 + index.toNat)
    index := lang, length := wLength }

/-- What a device answers to a SETUP packet on every IN control endpoint, whatever the handlers
are; nothing else happens. -/
def DescriptorReply (p : Profile) (d : Device) (setup : SetupPacket) (o : Outcome Bytes) : Prop :=
  ∀ (σ : Type) (env : Env σ) (ep : Endpoint) (owner : Option Iface) (len : UInt32) (data : Bytes)
    (w : World σ), ep.attributes.toNat = 0 → 128 ≤ ep.address.toNat →
    d.handleUrb env p ep owner len setup data w = (o, w)

/-! ## The whole of GET_DESCRIPTOR -/

/-- One interface of the configuration descriptor. -/
def interfaceBytes (i : Nat) (f : Iface) : Bytes :=
  interfaceBlock i f ++ f.classSpecificDescriptor ++ f.endpoints.flatMap endpointBlock

/-- All interfaces, numbered from `i`. -/
def interfacesBytes : Nat → List Iface → Bytes
  | _, [] => []
  | i, f :: fs => interfaceBytes i f ++ interfacesBytes (i + 1) fs

/-- The configuration descriptor with everything that belongs to it. -/
def configBytes (d : Device) : Bytes :=
  configBlock d (9 + (interfacesBytes 0 d.interfaces).length) ++ interfacesBytes 0 d.interfaces

/-- UTF-16, little endian, of one character. -/
def utf16le (c : Char) : Bytes :=
  if c.toNat < 0x10000 then le c.toNat
  else le (0xD800 + (c.toNat - 0x10000) / 0x400) ++ le (0xDC00 + (c.toNat - 0x10000) % 0x400)

/-- The string descriptor of a text (its length byte wraps for long texts). -/
def stringBlock (s : Str) : Bytes := [UInt8.ofNat (2 + 2 * units s), 3] ++ s.flatMap utf16le

/-- The descriptor of a device with a type and index; `none` is a string the device does not have.
Types the device knows nothing about have an empty descriptor. -/
def descriptorOf (d : Device) (type index : Nat) : Option Bytes :=
  if type = 1 then some (deviceBlock d)
  else if type = 2 then some (configBytes d)
  else if type = 3 then
    if index = 0 then some [4, 3, 0x09, 0x04] else (d.stringPool (UInt8.ofNat index)).map stringBlock
  else if type = 6 then some (qualifierBlock d)
  else if type = 15 then some bosBlock
  else some []

/-- Whether building the descriptor overflows its length byte (in builds that check). -/
def Overflows (p : Profile) (d : Device) (type index : Nat) : Prop :=
  p.overflowChecks = true ∧ type = 3 ∧ index ≠ 0 ∧
    ∃ s, d.stringPool (UInt8.ofNat index) = some s ∧ 127 ≤ units s % 256

instance (p : Profile) (d : Device) (type index : Nat) : Decidable (Overflows p d type index) :=
  decidable_of_iff (p.overflowChecks = true ∧ type = 3 ∧ index ≠ 0 ∧
    (d.stringPool (UInt8.ofNat index)).any (fun s => decide (127 ≤ units s % 256)) = true)
    (by simp [Overflows, Option.any_eq_true])

/-- What the host asked for of `b`: the first `n` bytes (lengths of 65536 and more are seen
modulo 65536). -/
def atMost (n : Nat) (b : Bytes) : Bytes := if n < b.length % 65536 then b.take n else b

end Usbip.Spec
