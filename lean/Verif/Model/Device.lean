import Verif.Model.Consts
/-!
# src/device.rs
-/

namespace Usbip

/-- src/device.rs:6-10 `Version`. -/
structure Version where
  major : UInt8
  minor : UInt8
  patch : UInt8
  deriving DecidableEq, Repr

/-- src/device.rs:4 `#[derive(Default)]`. -/
def Version.default : Version := ⟨0, 0, 0⟩

/-- src/device.rs:29-37 `impl From<u16> for Version` (bcdDevice). -/
def Version.ofU16 (value : UInt16) : Version :=
  { major := (value >>> 8).toUInt8
    minor := ((value >>> 4) &&& 0xF).toUInt8
    patch := (value &&& 0xF).toUInt8 }

/-- src/device.rs:42-71 `UsbDevice`.  `path` and `bus_id` are the UTF-8 bytes of the Rust strings
(they are only compared and serialised); `string_pool : HashMap<u8, String>` is a partial function;
`device_handler` is the identity of the shared handler object. -/
structure Device where
  path : Bytes
  busId : Bytes
  busNum : UInt32
  devNum : UInt32
  speed : UInt32
  vendorId : UInt16
  productId : UInt16
  deviceBcd : Version
  deviceClass : UInt8
  deviceSubclass : UInt8
  deviceProtocol : UInt8
  configurationValue : UInt8
  numConfigurations : UInt8
  interfaces : List Iface
  deviceHandler : Option Nat
  usbVersion : Version
  ep0In : Endpoint
  ep0Out : Endpoint
  stringPool : UInt8 → Option Str
  stringConfiguration : UInt8
  stringManufacturer : UInt8
  stringProduct : UInt8
  stringSerial : UInt8

/-- src/device.rs:40 `#[derive(Default)]`. -/
def Device.default : Device where
  path := []
  busId := []
  busNum := 0
  devNum := 0
  speed := 0
  vendorId := 0
  productId := 0
  deviceBcd := Version.default
  deviceClass := 0
  deviceSubclass := 0
  deviceProtocol := 0
  configurationValue := 0
  numConfigurations := 0
  interfaces := []
  deviceHandler := none
  usbVersion := Version.default
  ep0In := Endpoint.default
  ep0Out := Endpoint.default
  stringPool := fun _ => none
  stringConfiguration := 0
  stringManufacturer := 0
  stringProduct := 0
  stringSerial := 0

/-- ASCII text as UTF-8 bytes (string literals of the source).  As in src/device.rs:76-77,
src/lib.rs:113-124, 239-250. -/
def ascii (s : String) : Bytes := s.toList.map (fun c => UInt8.ofNat c.toNat)

/-- The loop of src/device.rs:208-213: `for i in 1..` over `u8`, taking the first vacant entry.
`RangeFrom<u8>::next` computes the successor before yielding, so with overflow checks the call
that would yield 255 panics; without, the counter wraps to 0.  `fuel` counts the iterations left
before every one of the 256 keys has been tried; at that point the Rust loop never returns. -/
def newStringScan (p : Profile) (pool : UInt8 → Option Str) : (fuel : Nat) → (i : UInt8) →
    Outcome UInt8
  | 0, _ => .diverge
  | fuel + 1, i =>
    if p.overflowChecks && i == 255 then .panic
    else if (pool i).isNone then .ok i
    else newStringScan p pool fuel (i + 1)

/-- `HashMap::insert` on the string pool.  src/device.rs:210. -/
def poolInsert (pool : UInt8 → Option Str) (i : UInt8) (s : Str) : UInt8 → Option Str :=
  fun j => if j = i then some s else pool j

/-- `HashMap::remove` on the string pool (the map part; the removed value is `pool i`).  src/device.rs:107,
116, 125, 134, 143, 152, 161, 170. -/
def poolRemove (pool : UInt8 → Option Str) (i : UInt8) : UInt8 → Option Str :=
  fun j => if j = i then none else pool j

/-- src/device.rs:207-215 `new_string`. -/
def Device.newString (p : Profile) (d : Device) (s : Str) : Outcome (UInt8 × Device) := do
  let i ← newStringScan p d.stringPool 256 1
  return (i, { d with stringPool := poolInsert d.stringPool i s })

/-- src/device.rs:74-102 `UsbDevice::new`. -/
def Device.new (p : Profile) (index : UInt32) : Outcome Device := do
  let res : Device :=
    { Device.default with
      path := ascii "/sys/bus/0/0/0"
      busId := ascii "0-0-0"
      devNum := index
      speed := usbSpeedHigh
      ep0In := { address := 0x80, attributes := EndpointAttributes.control.toU8
                 maxPacketSize := ep0MaxPacketSize, interval := 0 }
      ep0Out := { address := 0x00, attributes := EndpointAttributes.control.toU8
                  maxPacketSize := ep0MaxPacketSize, interval := 0 }
      configurationValue := 1
      numConfigurations := 1 }
  let (i, res) ← res.newString p "Default Configuration".toList
  let res := { res with stringConfiguration := i }
  let (i, res) ← res.newString p "Manufacturer".toList
  let res := { res with stringManufacturer := i }
  let (i, res) ← res.newString p "Product".toList
  let res := { res with stringProduct := i }
  let (i, res) ← res.newString p "Serial".toList
  let res := { res with stringSerial := i }
  return res

/-- The expression `(idx != 0).then(|| self.string_pool.remove(&idx)).flatten()` shared by
src/device.rs:106-108, 115-117, 124-126, ...: the removed name and the remaining pool. -/
def takeOld (pool : UInt8 → Option Str) (idx : UInt8) : Option Str × (UInt8 → Option Str) :=
  if idx ≠ 0 then (pool idx, poolRemove pool idx) else (none, pool)

/-- src/device.rs:105-111 `set_configuration_name`. -/
def Device.setConfigurationName (p : Profile) (d : Device) (name : Str) :
    Outcome (Option Str × Device) := do
  let (old, pool) := takeOld d.stringPool d.stringConfiguration
  let d := { d with stringPool := pool }
  let (i, d) ← d.newString p name
  return (old, { d with stringConfiguration := i })

/-- src/device.rs:114-120 `unset_configuration_name`. -/
def Device.unsetConfigurationName (d : Device) : Option Str × Device :=
  let (old, pool) := takeOld d.stringPool d.stringConfiguration
  (old, { d with stringPool := pool, stringConfiguration := 0 })

/-- src/device.rs:123-129 `set_serial_number`. -/
def Device.setSerialNumber (p : Profile) (d : Device) (name : Str) :
    Outcome (Option Str × Device) := do
  let (old, pool) := takeOld d.stringPool d.stringSerial
  let d := { d with stringPool := pool }
  let (i, d) ← d.newString p name
  return (old, { d with stringSerial := i })

/-- src/device.rs:132-138 `unset_serial_number`. -/
def Device.unsetSerialNumber (d : Device) : Option Str × Device :=
  let (old, pool) := takeOld d.stringPool d.stringSerial
  (old, { d with stringPool := pool, stringSerial := 0 })

/-- src/device.rs:141-147 `set_product_name`. -/
def Device.setProductName (p : Profile) (d : Device) (name : Str) :
    Outcome (Option Str × Device) := do
  let (old, pool) := takeOld d.stringPool d.stringProduct
  let d := { d with stringPool := pool }
  let (i, d) ← d.newString p name
  return (old, { d with stringProduct := i })

/-- src/device.rs:150-156 `unset_product_name`. -/
def Device.unsetProductName (d : Device) : Option Str × Device :=
  let (old, pool) := takeOld d.stringPool d.stringProduct
  (old, { d with stringPool := pool, stringProduct := 0 })

/-- src/device.rs:159-165 `set_manufacturer_name`. -/
def Device.setManufacturerName (p : Profile) (d : Device) (name : Str) :
    Outcome (Option Str × Device) := do
  let (old, pool) := takeOld d.stringPool d.stringManufacturer
  let d := { d with stringPool := pool }
  let (i, d) ← d.newString p name
  return (old, { d with stringManufacturer := i })

/-- src/device.rs:168-174 `unset_manufacturer_name`. -/
def Device.unsetManufacturerName (d : Device) : Option Str × Device :=
  let (old, pool) := takeOld d.stringPool d.stringManufacturer
  (old, { d with stringPool := pool, stringManufacturer := 0 })

/-- src/device.rs:176-197 `with_interface`.  `classSpecific` is what the handler's
`get_class_specific_descriptor` returns at this moment (src/device.rs:186), `none` if the handler's mutex
is poisoned (`handler.lock().unwrap()` panics).  The string has been allocated before, but the device is
owned by the call and lost with the panic. -/
def Device.withInterface (p : Profile) (d : Device) (cls sub proto : UInt8) (name : Option Str)
    (endpoints : List Endpoint) (handler : Nat) (classSpecific : Option Bytes) : Outcome Device := do
  let (si, d) ← (match name with
    | some name => d.newString p name
    | none => .ok (0, d) : Outcome (UInt8 × Device))
  let classSpecific ← (match classSpecific with
    | some bs => .ok bs
    | none => .panic : Outcome Bytes)
  return { d with interfaces := d.interfaces ++ [
    { interfaceClass := cls, interfaceSubclass := sub, interfaceProtocol := proto
      endpoints := endpoints, stringInterface := si
      classSpecificDescriptor := classSpecific, handler := handler }] }

/-- src/device.rs:199-205 `with_device_handler`. -/
def Device.withDeviceHandler (d : Device) (handler : Nat) : Device :=
  { d with deviceHandler := some handler }

/-- Inner loop of src/device.rs:224-228. -/
def findEpIn (ep : UInt8) : List Endpoint → Option Endpoint
  | [] => none
  | e :: es => if e.address = ep then some e else findEpIn ep es

/-- Outer loop of src/device.rs:223-229. -/
def findEpIfs (ep : UInt8) : List Iface → Option (Endpoint × Option Iface)
  | [] => none
  | i :: is =>
    match findEpIn ep i.endpoints with
    | some e => some (e, some i)
    | none => findEpIfs ep is

/-- src/device.rs:217-232 `find_ep`. -/
def Device.findEp (d : Device) (ep : UInt8) : Option (Endpoint × Option Iface) :=
  if ep = d.ep0In.address then some (d.ep0In, none)
  else if ep = d.ep0Out.address then some (d.ep0Out, none)
  else findEpIfs ep d.interfaces

/-- src/device.rs:234-262 `to_bytes`. -/
def Device.toBytes (p : Profile) (d : Device) : Outcome Bytes := do
  debugAssert p (d.path.length ≤ 256)
  debugAssert p (d.busId.length ≤ 32)
  return resize d.path 256
    ++ resize d.busId 32
    ++ be32 d.busNum
    ++ be32 d.devNum
    ++ be32 d.speed
    ++ be16 d.vendorId
    ++ be16 d.productId
    ++ [d.deviceBcd.major, d.deviceBcd.minor, d.deviceClass, d.deviceSubclass,
        d.deviceProtocol, d.configurationValue, d.numConfigurations,
        asU8 d.interfaces.length]

/-- src/device.rs:264-276 `to_bytes_with_interfaces`. -/
def Device.toBytesWithInterfaces (p : Profile) (d : Device) : Outcome Bytes := do
  let result ← d.toBytes p
  return result ++ d.interfaces.flatMap (fun i =>
    [i.interfaceClass, i.interfaceSubclass, i.interfaceProtocol, 0])

/-- The repeated tail of the descriptor arms (src/device.rs:326-328, 341-343, 395-397, 412-414,
428-430, 455-457, 497-499): `if length < desc.len() as u16 { desc.resize(length, 0) }`. -/
def clip (desc : Bytes) (length : UInt16) : Bytes :=
  if length < asU16 desc.length then resize desc length.toNat else desc

/-- src/device.rs:304-323: the device descriptor. -/
def Device.deviceDescriptor (d : Device) : Bytes :=
  [0x12, DescriptorType.device.toU8,
   d.usbVersion.minor, d.usbVersion.major,
   d.deviceClass, d.deviceSubclass, d.deviceProtocol,
   d.ep0In.maxPacketSize.toUInt8,
   d.vendorId.toUInt8, (d.vendorId >>> 8).toUInt8,
   d.productId.toUInt8, (d.productId >>> 8).toUInt8,
   d.deviceBcd.minor, d.deviceBcd.major,
   d.stringManufacturer, d.stringProduct, d.stringSerial,
   d.numConfigurations]

/-- src/device.rs:333-338: the BOS descriptor. -/
def bosDescriptor : Bytes :=
  [0x05, DescriptorType.bos.toU8, 0x05, 0x00, 0x00]

/-- src/device.rs:376-384: one endpoint descriptor. -/
def Endpoint.descriptor (e : Endpoint) : Bytes :=
  [0x07, DescriptorType.endpoint.toU8, e.address, e.attributes,
   e.maxPacketSize.toUInt8, (e.maxPacketSize >>> 8).toUInt8, e.interval]

/-- src/device.rs:360-386: interface descriptor, class specific bytes, endpoint descriptors. -/
def Iface.descriptor (intf : Iface) (i : Nat) : Bytes :=
  [0x09, DescriptorType.interface.toU8, asU8 i, 0x00, asU8 intf.endpoints.length,
   intf.interfaceClass, intf.interfaceSubclass, intf.interfaceProtocol, intf.stringInterface]
  ++ intf.classSpecificDescriptor
  ++ intf.endpoints.flatMap Endpoint.descriptor

/-- src/device.rs:359-388: the loop over interfaces, starting at interface number `i`. -/
def ifaceDescriptors : (i : Nat) → List Iface → Bytes
  | _, [] => []
  | i, intf :: is => intf.descriptor i ++ ifaceDescriptors (i + 1) is

/-- src/device.rs:348-392: the configuration descriptor, with wTotalLength filled in. -/
def Device.configDescriptor (d : Device) : Bytes :=
  let rest := ifaceDescriptors 0 d.interfaces
  let len : UInt16 := asU16 (9 + rest.length)
  [0x09, DescriptorType.configuration.toU8, len.toUInt8, (len >>> 8).toUInt8,
   asU8 d.interfaces.length, d.configurationValue, d.stringConfiguration, 0x80, 0x32]
  ++ rest

/-- src/device.rs:405-410: the language id descriptor (string index 0). -/
def langDescriptor : Bytes := [4, DescriptorType.string.toU8, 0x09, 0x04]

/-- `str::encode_utf16` (used at src/device.rs:417) for one character. -/
def utf16Char (c : Char) : List UInt16 :=
  let n := c.toNat
  if n < 0x10000 then [UInt16.ofNat n]
  else
    let m := n - 0x10000
    [UInt16.ofNat (0xD800 + m / 0x400), UInt16.ofNat (0xDC00 + m % 0x400)]

/-- `str::encode_utf16().collect::<Vec<u16>>()` (src/device.rs:417). -/
def utf16 (s : Str) : List UInt16 := s.flatMap utf16Char

/-- `a * b` on `u8` with the profile's overflow behaviour.  src/device.rs:419. -/
def mulU8 (p : Profile) (a b : UInt8) : Outcome UInt8 :=
  if p.overflowChecks && decide (256 ≤ a.toNat * b.toNat) then .panic else .ok (a * b)

/-- `a + b` on `u8` with the profile's overflow behaviour.  src/device.rs:419. -/
def addU8 (p : Profile) (a b : UInt8) : Outcome UInt8 :=
  if p.overflowChecks && decide (256 ≤ a.toNat + b.toNat) then .panic else .ok (a + b)

/-- src/device.rs:417-425: the string descriptor of `s`; bLength is `2 + bytes.len() as u8 * 2`. -/
def stringDescriptor (p : Profile) (s : Str) : Outcome Bytes := do
  let units := utf16 s
  let dbl ← mulU8 p (asU8 units.length) 2
  let bLength ← addU8 p 2 dbl
  return [bLength, DescriptorType.string.toU8]
    ++ units.flatMap (fun (u : UInt16) => [u.toUInt8, (u >>> 8).toUInt8])

/-- src/device.rs:441-452: the device qualifier descriptor. -/
def Device.qualifierDescriptor (d : Device) : Bytes :=
  [0x0A, DescriptorType.deviceQualifier.toU8, d.usbVersion.minor, d.usbVersion.major,
   d.deviceClass, d.deviceSubclass, d.deviceProtocol, d.ep0In.maxPacketSize.toUInt8,
   d.numConfigurations, 0x00]

/-- src/device.rs:299-465: the `(0b10000000, GetDescriptor)` arm. -/
def Device.getDescriptor (p : Profile) (d : Device) (setup : SetupPacket) : Outcome Bytes :=
  match DescriptorType.fromU16 (setup.value >>> 8) with
  | some .device => .ok (clip d.deviceDescriptor setup.length)
  | some .bos => .ok (clip bosDescriptor setup.length)
  | some .configuration => .ok (clip d.configDescriptor setup.length)
  | some .string =>
    let index := setup.value.toUInt8
    if index = 0 then .ok (clip langDescriptor setup.length)
    else
      match d.stringPool index with
      | some s => do
        let desc ← stringDescriptor p s
        return clip desc setup.length
      | none => .err .invalidInput
  | some .deviceQualifier => .ok (clip d.qualifierDescriptor setup.length)
  | _ => .ok []

/-- The `to interface` arms (src/device.rs:466-473, 502-509): `self.interfaces[index & 0xFF]`
panics when out of range. -/
def Device.controlToInterface {σ} (env : Env σ) (d : Device) (ep : Endpoint) (len : UInt32)
    (setup : SetupPacket) (req : Bytes) (w : World σ) : Outcome Bytes × World σ :=
  match d.interfaces[setup.index.toNat &&& 0xFF]? with
  | some intf => env.callIface intf ep len setup req w
  | none => (.panic, w)

/-- The two guarded arms and the `unimplemented!` arm shared by control IN and OUT
(src/device.rs:466-481, 502-517). -/
def Device.controlOther {σ} (env : Env σ) (d : Device) (ep : Endpoint) (len : UInt32)
    (setup : SetupPacket) (req : Bytes) (w : World σ) : Outcome Bytes × World σ :=
  if setup.requestType &&& 0xF = 1 then
    d.controlToInterface env ep len setup req w
  else
    match d.deviceHandler with
    | some h =>
      if setup.requestType &&& 0xF = 0 then env.callDev h len setup req w
      else (.panic, w)
    | none => (.panic, w)

/-- src/device.rs:278-528 `handle_urb`. -/
def Device.handleUrb {σ} (env : Env σ) (p : Profile) (d : Device) (ep : Endpoint)
    (intf : Option Iface) (transferBufferLength : UInt32) (setup : SetupPacket) (outData : Bytes)
    (w : World σ) : Outcome Bytes × World σ :=
  match EndpointAttributes.fromU8 ep.attributes, ep.direction with
  | some .control, .in =>
    if setup.requestType = 0x80 ∧ StandardRequest.fromU8 setup.request = some .getDescriptor then
      (d.getDescriptor p setup, w)
    else d.controlOther env ep transferBufferLength setup outData w
  | some .control, .out =>
    if setup.requestType = 0x00 ∧ StandardRequest.fromU8 setup.request = some .setConfiguration then
      (.ok (clip [d.configurationValue] setup.length), w)
    else d.controlOther env ep transferBufferLength setup outData w
  | some _, _ =>
    match intf with
    | some i => env.callIface i ep transferBufferLength setup outData w
    | none => (.panic, w)
  | none, _ => (.panic, w)

end Usbip
