import Verif.Model.Device
/-!
# src/host.rs and the host-device constructors of src/lib.rs

libusb (rusb) and nusb are external: each call is an arbitrary function of its arguments and an
arbitrary state `σ`.  A successful read reports a length and the new contents of the buffer
(a Rust slice, so its length cannot change): the contents are given per position.
-/

namespace Usbip

/-- Result of a read call on a buffer: `None` for `Err`, or the reported length and the buffer's
contents afterwards.  src/host.rs:36-44, 63-65, 75-76, 133-141, 210-211. -/
abbrev ReadRes := Option (Nat × (Nat → UInt8))

/-- The buffer `vec![0u8; n]` after the call (src/host.rs:29, 115, 185, 264). -/
def bufferAfter (n : Nat) (f : Nat → UInt8) : Bytes := (List.range n).map f

/-- `Ok(Vec::from(&buffer[..len]))` or fall through to `Ok(vec![])` on an error
(e.g. src/host.rs:36-45, 83); slicing past the end panics. -/
def sliceResult (n : Nat) : ReadRes → HRes
  | none => .ok []
  | some (len, f) => if len ≤ n then .ok ((bufferAfter n f).take len) else .panic

/-- The `rusb::DeviceHandle` calls used by src/host.rs. Timeout is always one second. Write calls'
results are discarded (`.ok()`). -/
structure RusbLib (σ : Type) where
  readControl : UInt8 → UInt8 → UInt16 → UInt16 → (bufLen : Nat) → σ → ReadRes × σ
  writeControl : UInt8 → UInt8 → UInt16 → UInt16 → Bytes → σ → σ
  readInterrupt : UInt8 → (bufLen : Nat) → σ → ReadRes × σ
  writeInterrupt : UInt8 → Bytes → σ → σ
  readBulk : UInt8 → (bufLen : Nat) → σ → ReadRes × σ
  writeBulk : UInt8 → Bytes → σ → σ

/-- src/host.rs:17-84 `RusbUsbHostInterfaceHandler::handle_urb`. -/
def rusbIface {σ} (lib : RusbLib σ) (ep : Endpoint) (transferBufferLength : UInt32)
    (setup : SetupPacket) (req : Bytes) (s : σ) : HRes × σ :=
  let n := transferBufferLength.toNat
  if ep.attributes = EndpointAttributes.control.toU8 then
    match ep.direction with
    | .in =>
      let (r, s) := lib.readControl setup.requestType setup.request setup.value setup.index n s
      (sliceResult n r, s)
    | .out =>
      (.ok [], lib.writeControl setup.requestType setup.request setup.value setup.index req s)
  else if ep.attributes = EndpointAttributes.interrupt.toU8 then
    match ep.direction with
    | .in =>
      let (r, s) := lib.readInterrupt ep.address n s
      (sliceResult n r, s)
    | .out => (.ok [], lib.writeInterrupt ep.address req s)
  else if ep.attributes = EndpointAttributes.bulk.toU8 then
    match ep.direction with
    | .in =>
      let (r, s) := lib.readBulk ep.address n s
      (sliceResult n r, s)
    | .out => (.ok [], lib.writeBulk ep.address req s)
  else (.ok [], s)

/-- src/host.rs:108-145 `RusbUsbHostDeviceHandler::handle_urb`. -/
def rusbDev {σ} (lib : RusbLib σ) (transferBufferLength : UInt32) (setup : SetupPacket)
    (req : Bytes) (s : σ) : HRes × σ :=
  let n := transferBufferLength.toNat
  if setup.requestType &&& 0x80 = 0 then
    (.ok [], lib.writeControl setup.requestType setup.request setup.value setup.index req s)
  else
    let (r, s) := lib.readControl setup.requestType setup.request setup.value setup.index n s
    (sliceResult n r, s)

/-- `Arc<Mutex<DeviceHandle<GlobalContext>>>` (src/host.rs:7, 98; src/lib.rs:198): the device behind the handle, and
whether a thread has panicked with the handle locked. -/
structure Handle (τ : Type) where
  dev : τ
  poisoned : Bool
  deriving DecidableEq, Repr

/-- `let handle = self.handle.lock().unwrap();` and the rest of the function (src/host.rs:31-83, 117-144), which is
`f`: if a thread has panicked with the handle locked, `unwrap()` panics; if `f` panics, the handle is locked. -/
def Handle.locked {τ} (s : Handle τ) (f : τ → HRes × τ) : HRes × Handle τ :=
  if s.poisoned then (.panic, s) else ((f s.dev).1, ⟨(f s.dev).2, decide ((f s.dev).1 = .panic)⟩)

/-- A device shared through libusb beside arbitrary other handlers: its interface handlers (numbers
`ifs`) and its device handler (numbers `devs`) all work on one handle (src/lib.rs:198, 224-227,
275-277), which the other handlers do not touch. -/
def sharing {σ τ} (lib : RusbLib τ) (ifs devs : Nat → Bool) (env : Env σ) : Env (σ × Handle τ) where
  iface h i e l s d u :=
    if ifs h then ((u.2.locked (rusbIface lib e l s d)).1, (u.1, (u.2.locked (rusbIface lib e l s d)).2))
    else ((env.iface h i e l s d u.1).1, ((env.iface h i e l s d u.1).2, u.2))
  dev h l s d u :=
    if devs h then ((u.2.locked (rusbDev lib l s d)).1, (u.1, (u.2.locked (rusbDev lib l s d)).2))
    else ((env.dev h l s d u.1).1, ((env.dev h l s d u.1).2, u.2))

/-- `nusb::transfer::ControlType` as matched at src/host.rs:189-194, 268-273. -/
inductive NusbType where
  | standard | cls | vendor
  deriving DecidableEq, Repr

/-- `nusb::transfer::Recipient` as matched at src/host.rs:195-201, 274-280. -/
inductive NusbRecipient where
  | device | interface | endpoint | other
  deriving DecidableEq, Repr

/-- src/host.rs:189-194: `match (request_type >> 5) & 0b11`; `none` is `unimplemented!()`. -/
def nusbType (requestType : UInt8) : Option NusbType :=
  if (requestType >>> 5) &&& 3 = 0 then some .standard
  else if (requestType >>> 5) &&& 3 = 1 then some .cls
  else if (requestType >>> 5) &&& 3 = 2 then some .vendor
  else none

/-- src/host.rs:195-201: `match request_type & 0b11111`; `none` is `unimplemented!()`. -/
def nusbRecipient (requestType : UInt8) : Option NusbRecipient :=
  if requestType &&& 31 = 0 then some .device
  else if requestType &&& 31 = 1 then some .interface
  else if requestType &&& 31 = 2 then some .endpoint
  else if requestType &&& 31 = 3 then some .other
  else none

/-- `nusb::transfer::Control` (src/host.rs:188-205, 267-284). -/
structure NusbControl where
  controlType : NusbType
  recipient : NusbRecipient
  request : UInt8
  value : UInt16
  index : UInt16
  deriving DecidableEq, Repr

/-- src/host.rs:188-205, 267-284: building the control request; `none` is a panic. -/
def nusbControl (setup : SetupPacket) : Option NusbControl := do
  let t ← nusbType setup.requestType
  let r ← nusbRecipient setup.requestType
  return { controlType := t, recipient := r, request := setup.request, value := setup.value
           index := setup.index }

/-- The nusb calls used by src/host.rs. -/
structure NusbLib (σ : Type) where
  controlIn : NusbControl → (bufLen : Nat) → σ → ReadRes × σ
  controlOut : NusbControl → Bytes → σ → σ

/-- src/host.rs:173-225 `NusbUsbHostInterfaceHandler::handle_urb`. -/
def nusbIface {σ} (lib : NusbLib σ) (ep : Endpoint) (transferBufferLength : UInt32)
    (setup : SetupPacket) (req : Bytes) (s : σ) : HRes × σ :=
  let n := transferBufferLength.toNat
  match nusbControl setup with
  | none => (.panic, s)
  | some control =>
    if ep.attributes = EndpointAttributes.control.toU8 then
      match ep.direction with
      | .in =>
        let (r, s) := lib.controlIn control n s
        (sliceResult n r, s)
      | .out => (.ok [], lib.controlOut control req s)
    else if ep.attributes = EndpointAttributes.interrupt.toU8 then (.panic, s)
    else if ep.attributes = EndpointAttributes.bulk.toU8 then (.panic, s)
    else (.ok [], s)

/-- src/host.rs:257-302 `NusbUsbHostDeviceHandler::handle_urb` on targets other than Windows. -/
def nusbDev {σ} (lib : NusbLib σ) (transferBufferLength : UInt32) (setup : SetupPacket)
    (req : Bytes) (s : σ) : HRes × σ :=
  let n := transferBufferLength.toNat
  match nusbControl setup with
  | none => (.panic, s)
  | some control =>
    if setup.requestType &&& 0x80 = 0 then (.ok [], lib.controlOut control req s)
    else
      let (r, s) := lib.controlIn control n s
      (sliceResult n r, s)

/-- A device shared through nusb beside arbitrary other handlers: interface handler `h` (one of `ifs`)
has its own claimed interface, the device handler (one of `devs`) its own handle (src/lib.rs:96-99,
149-151); what these do to the host device, whose state is `τ`, is arbitrary.  Each of the handles'
own mutexes is used by one handler only, so it is poisoned together with the handler's. -/
def sharingNusb {σ τ} (libI libD : Nat → NusbLib τ) (ifs devs : Nat → Bool) (env : Env σ) : Env (σ × τ) where
  iface h i e l s d u :=
    if ifs h then ((nusbIface (libI h) e l s d u.2).1, (u.1, (nusbIface (libI h) e l s d u.2).2))
    else ((env.iface h i e l s d u.1).1, ((env.iface h i e l s d u.1).2, u.2))
  dev h l s d u :=
    if devs h then ((nusbDev (libD h) l s d u.2).1, (u.1, (nusbDev (libD h) l s d u.2).2))
    else ((env.dev h l s d u.1).1, ((env.dev h l s d u.1).2, u.2))

/-! ## Host device construction -/

/-- `format!("{}", n)` for an unsigned integer, as bytes.  src/lib.rs:113-124, 239-250. -/
def decimal (n : Nat) : Bytes := (Nat.toDigits 10 n).map (fun c => UInt8.ofNat c.toNat)

/-- `format!("{}-{}-{}", a, b, c)` (src/lib.rs:119-124, 245-250). -/
def formatBusId (a b c : Nat) : Bytes := decimal a ++ [45] ++ decimal b ++ [45] ++ decimal c

/-- `format!("/sys/bus/{}/{}/{}", a, b, c)` (src/lib.rs:113-118, 239-244). -/
def formatPath (a b c : Nat) : Bytes :=
  ascii "/sys/bus/" ++ decimal a ++ [47] ++ decimal b ++ [47] ++ decimal c

/-- An endpoint descriptor of the host device (USB 2.0 table 9-13) and what follows it, as read by
`ep_desc` at src/lib.rs:88-95 and 213-220. -/
structure HostEp where
  address : UInt8
  /-- `bmAttributes` -/
  attributes : UInt8
  /-- `wMaxPacketSize` -/
  maxPacketSize : UInt16
  interval : UInt8
  /-- descriptors following the endpoint descriptor (never read by the code) -/
  extra : Bytes
  deriving DecidableEq, Repr

/-- `ep_desc.transfer_type() as u8` (src/lib.rs:91, 216): libusb and nusb report bits 0..1 of
`bmAttributes`; the discriminants of both enumerations are 0 to 3 in the order of USB 2.0. -/
def HostEp.transferType (e : HostEp) : UInt8 := e.attributes &&& 3

/-- src/lib.rs:213-220: the `UsbEndpoint` for a libusb endpoint descriptor. -/
def HostEp.rusb (e : HostEp) : Endpoint :=
  { address := e.address, attributes := e.transferType, maxPacketSize := e.maxPacketSize
    interval := e.interval }

/-- src/lib.rs:88-95: the `UsbEndpoint` for a nusb endpoint descriptor; nusb's `max_packet_size()`
is bits 0..10 of `wMaxPacketSize`. -/
def HostEp.nusb (e : HostEp) : Endpoint :=
  { address := e.address, attributes := e.transferType, maxPacketSize := e.maxPacketSize &&& 0x7FF
    interval := e.interval }

/-- One alternate setting of an interface of the host device, as read at src/lib.rs:83-110 and
205-236. -/
structure HostIfDesc where
  /-- `bInterfaceNumber` -/
  number : UInt8
  /-- `bAlternateSetting` (never read by the code) -/
  setting : UInt8
  cls : UInt8
  sub : UInt8
  proto : UInt8
  endpoints : List HostEp
  stringIndex : Option UInt8
  /-- `extra()`: descriptors between the interface descriptor and its first endpoint -/
  extra : Bytes
  deriving DecidableEq, Repr

/-- The active configuration of a host device.  `attributes`, `maxPower`, `stringIndex` and `extra`
are never read by the code.  src/lib.rs:74-108, 187-237. -/
structure HostCfg where
  /-- `number()` / `configuration_value()` -/
  value : UInt8
  attributes : UInt8
  maxPower : UInt8
  stringIndex : Option UInt8
  /-- descriptors between the configuration descriptor and the first interface -/
  extra : Bytes
  /-- interfaces, each a list of alternate settings -/
  interfaces : List (List HostIfDesc)
  deriving DecidableEq, Repr

/-- `rusb::Version(major, minor, sub_minor)`.  src/device.rs:12-26. -/
structure RusbVersion where
  major : UInt8
  minor : UInt8
  subMinor : UInt8
  deriving DecidableEq, Repr

/-- `rusb::Version::from_bcd`: tens and units of the high byte, the two nibbles of the low byte.
`10 * raw` is computed in `u16` and cast, the sum fits.  Called inside rusb for `device_version()` and
`usb_version()` (src/lib.rs:259-278); not in /repo. -/
def RusbVersion.fromBcd (bcd : UInt16) : RusbVersion :=
  { major := ((10 : UInt16) * (bcd >>> 12 : UInt16) + ((bcd >>> 8) &&& 0xF : UInt16)).toUInt8
    minor := ((bcd >>> 4) &&& 0xF).toUInt8
    subMinor := (bcd &&& 0xF).toUInt8 }

/-- src/device.rs:12-20 `impl From<rusbVersion> for Version`. -/
def Version.ofRusbVersion (v : RusbVersion) : Version := ⟨v.major, v.minor, v.subMinor⟩

/-- src/device.rs:22-26 `impl From<Version> for rusbVersion`. -/
def Version.toRusb (v : Version) : RusbVersion := ⟨v.major, v.minor, v.patch⟩

/-- The version a device made from a libusb device gets (src/lib.rs:254-278 reads `device_version()` and
`usb_version()` and converts with `.into()`). -/
def Version.ofRusb (bcd : UInt16) : Version := Version.ofRusbVersion (RusbVersion.fromBcd bcd)

/-- The device descriptor as rusb reports it (src/lib.rs:254-278); `bcdDevice` and `bcdUsb` are the
values in the host's descriptor, which rusb reports split into digits. -/
structure HostDevDesc where
  vendorId : UInt16
  productId : UInt16
  cls : UInt8
  sub : UInt8
  proto : UInt8
  bcdDevice : UInt16
  bcdUsb : UInt16
  numConfigurations : UInt8
  maxPacketSize : UInt8
  manufacturerIndex : Option UInt8
  productIndex : Option UInt8
  serialIndex : Option UInt8
  deriving DecidableEq, Repr

/-- The speeds a host reports: `rusb::Speed` in declaration order (src/lib.rs:253). -/
inductive RusbSpeed where
  | unknown | low | full | high | super | superPlus
  deriving DecidableEq, Repr

/-- `dev.speed() as u32` (src/lib.rs:253): the discriminant. -/
def RusbSpeed.toU32 : RusbSpeed → UInt32
  | .unknown => 0 | .low => 1 | .full => 2 | .high => 3 | .super => 4 | .superPlus => 5

/-- `nusb::Speed` in declaration order (src/lib.rs:127). -/
inductive NusbSpeed where
  | low | full | high | super | superPlus
  deriving DecidableEq, Repr

/-- `device_info.speed().unwrap() as u32` (src/lib.rs:127): the discriminant. -/
def NusbSpeed.toU32 : NusbSpeed → UInt32
  | .low => 0 | .full => 1 | .high => 2 | .super => 3 | .superPlus => 4

/-- An open rusb device (src/lib.rs:175-313).  `none` stands for `Err`.  `cfg` is the active
configuration. `ifHandler` and `devHandler` are the identities of the handler objects created for
it. -/
structure HostDev where
  bus : UInt8
  address : UInt8
  port : UInt8
  speed : RusbSpeed
  desc : Option HostDevDesc
  cfg : Option HostCfg
  stringAscii : UInt8 → Option Str
  ifHandler : Nat → Nat
  devHandler : Nat

/-- src/lib.rs:205-237: the loop over interfaces; `descriptors().next().unwrap()` panics on an
interface without settings. -/
def rusbInterfaces (h : Nat → Nat) : (i : Nat) → List (List HostIfDesc) → Outcome (List Iface)
  | _, [] => .ok []
  | _, [] :: _ => .panic
  | i, (d :: _) :: rest => do
    let is ← rusbInterfaces h (i + 1) rest
    return { interfaceClass := d.cls, interfaceSubclass := d.sub, interfaceProtocol := d.proto
             endpoints := d.endpoints.map HostEp.rusb, stringInterface := d.stringIndex.getD 0
             classSpecificDescriptor := d.extra, handler := h i } :: is

/-- src/lib.rs:283-309: `if let Some(index) = ... { new_string(&read_string_descriptor_ascii(index).unwrap()) }`;
returns the string index (0 when the device has none). -/
def rusbString (p : Profile) (read : UInt8 → Option Str) (idx : Option UInt8) (d : Device) :
    Outcome (UInt8 × Device) :=
  match idx with
  | none => .ok (0, d)
  | some i =>
    match read i with
    | none => .panic
    | some s => d.newString p s

/-- src/lib.rs:175-311: one iteration of `with_rusb_device_handles`; `none` means the device is
skipped.  The kernel-driver calls have no effect on the result. -/
def rusbDevice (p : Profile) (h : HostDev) : Outcome (Option Device) :=
  match h.desc, h.cfg with
  | some desc, some cfg => do
    let interfaces ← rusbInterfaces h.ifHandler 0 cfg.interfaces
    let device : Device :=
      { Device.default with
        path := formatPath h.bus.toNat h.address.toNat h.port.toNat
        busId := formatBusId h.bus.toNat h.address.toNat h.port.toNat
        busNum := h.bus.toUInt32
        devNum := h.port.toUInt32
        speed := h.speed.toU32
        vendorId := desc.vendorId
        productId := desc.productId
        deviceClass := desc.cls
        deviceSubclass := desc.sub
        deviceProtocol := desc.proto
        deviceBcd := Version.ofRusb desc.bcdDevice
        configurationValue := cfg.value
        numConfigurations := desc.numConfigurations
        ep0In := { address := 0x80, attributes := EndpointAttributes.control.toU8
                   maxPacketSize := desc.maxPacketSize.toUInt16, interval := 0 }
        ep0Out := { address := 0x00, attributes := EndpointAttributes.control.toU8
                    maxPacketSize := desc.maxPacketSize.toUInt16, interval := 0 }
        interfaces := interfaces
        deviceHandler := some h.devHandler
        usbVersion := Version.ofRusb desc.bcdUsb }
    let (i, device) ← rusbString p h.stringAscii desc.manufacturerIndex device
    let device := { device with stringManufacturer := i }
    let (i, device) ← rusbString p h.stringAscii desc.productIndex device
    let device := { device with stringProduct := i }
    let (i, device) ← rusbString p h.stringAscii desc.serialIndex device
    let device := { device with stringSerial := i }
    return some device
  | _, _ => .ok none

/-- src/lib.rs:171-313 `with_rusb_device_handles`. -/
def withRusbDeviceHandles (p : Profile) : List HostDev → Outcome (List Device)
  | [] => .ok []
  | h :: hs => do
    let d ← rusbDevice p h
    let ds ← withRusbDeviceHandles p hs
    return d.toList ++ ds

/-- A nusb `DeviceInfo` and what opening it gives (src/lib.rs:58-168).  `opened`/`cfg` are `none`
on error, `claimable k = false` makes `claim_interface(k).unwrap()` panic for interface number `k`,
`speed = none` makes `speed().unwrap()` panic.  `bcdUsb` and `maxPacketSize` are in the device's
descriptor and never read by the code. -/
structure NusbDev where
  bus : UInt8
  address : UInt8
  speed : Option NusbSpeed
  vendorId : UInt16
  productId : UInt16
  cls : UInt8
  sub : UInt8
  proto : UInt8
  bcdDevice : UInt16
  bcdUsb : UInt16
  maxPacketSize : UInt8
  opened : Bool
  cfg : Option HostCfg
  claimable : UInt8 → Bool
  configurations : Nat
  manufacturer : Option Str
  product : Option Str
  serial : Option Str
  ifHandler : Nat → Nat
  devHandler : Nat

/-- src/lib.rs:82-111: the loop over interfaces.  The interface is claimed by its number; an
interface without settings (which nusb does not report) panics. -/
def nusbInterfaces (n : NusbDev) : (i : Nat) → List (List HostIfDesc) → Outcome (List Iface)
  | _, [] => .ok []
  | _, [] :: _ => .panic
  | i, (d :: _) :: rest =>
    if !n.claimable d.number then .panic
    else do
      let is ← nusbInterfaces n (i + 1) rest
      return { interfaceClass := d.cls, interfaceSubclass := d.sub, interfaceProtocol := d.proto
               endpoints := d.endpoints.map HostEp.nusb, stringInterface := d.stringIndex.getD 0
               classSpecificDescriptor := [], handler := n.ifHandler i } :: is

/-- src/lib.rs:156-164: `if let Some(s) = ... { device.string_x = device.new_string(s) }`. -/
def nusbString (p : Profile) (s : Option Str) (d : Device) : Outcome (UInt8 × Device) :=
  match s with
  | none => .ok (0, d)
  | some s => d.newString p s

/-- src/lib.rs:60-166: one iteration of `with_nusb_devices`. -/
def nusbDevice (p : Profile) (n : NusbDev) : Outcome (Option Device) :=
  if !n.opened then .ok none
  else
    match n.cfg with
    | none => .ok none
    | some cfg => do
      let interfaces ← nusbInterfaces n 0 cfg.interfaces
      let speed ← (match n.speed with
        | some s => .ok s.toU32
        | none => .panic : Outcome UInt32)
      let device : Device :=
        { Device.default with
          path := formatPath n.bus.toNat n.address.toNat 0
          busId := formatBusId n.bus.toNat n.address.toNat 0
          busNum := n.bus.toUInt32
          devNum := 0
          speed := speed
          vendorId := n.vendorId
          productId := n.productId
          deviceClass := n.cls
          deviceSubclass := n.sub
          deviceProtocol := n.proto
          deviceBcd := Version.ofU16 n.bcdDevice
          configurationValue := cfg.value
          numConfigurations := asU8 n.configurations
          ep0In := { address := 0x80, attributes := EndpointAttributes.control.toU8
                     maxPacketSize := 16, interval := 0 }
          ep0Out := { address := 0x00, attributes := EndpointAttributes.control.toU8
                      maxPacketSize := 16, interval := 0 }
          interfaces := interfaces
          deviceHandler := some n.devHandler }
      let (i, device) ← nusbString p n.manufacturer device
      let device := { device with stringManufacturer := i }
      let (i, device) ← nusbString p n.product device
      let device := { device with stringProduct := i }
      let (i, device) ← nusbString p n.serial device
      let device := { device with stringSerial := i }
      return some device

/-- src/lib.rs:58-168 `with_nusb_devices`. -/
def withNusbDevices (p : Profile) : List NusbDev → Outcome (List Device)
  | [] => .ok []
  | n :: ns => do
    let d ← nusbDevice p n
    let ds ← withNusbDevices p ns
    return d.toList ++ ds

/-- A device as enumerated by `rusb::devices()`: which one it is (`id`; the filter can tell devices
apart and look at them before they are opened) and what opening it gives, `none` for an error
(src/lib.rs:315-329). -/
structure RusbEntry where
  id : Nat
  openResult : Option HostDev

/-- src/lib.rs:315-329 `with_rusb_devices`. -/
def withRusbDevices (p : Profile) (l : List RusbEntry) : Outcome (List Device) :=
  withRusbDeviceHandles p (l.filterMap RusbEntry.openResult)

/-- src/lib.rs:343-345 `list.iter().filter(filter)`, with the `FnMut` closure as a function of its
captured state `f`. -/
def filterMut {φ} (filter : φ → RusbEntry → Bool × φ) : φ → List RusbEntry → List RusbEntry
  | _, [] => []
  | f, e :: es => if (filter f e).1 then e :: filterMut filter (filter f e).2 es else filterMut filter (filter f e).2 es

/-- src/lib.rs:337-354 `new_from_host_with_filter`: the initial available devices (`devices` is
`none` when enumeration fails); `f` is the closure's captured state.  `new_from_host` (332-334) is
`filter = fun _ _ => (true, _)`. -/
def newFromHostWithFilter {φ} (p : Profile) (devices : Option (List RusbEntry))
    (filter : φ → RusbEntry → Bool × φ) (f : φ) : Outcome (List Device) :=
  match devices with
  | some list => withRusbDevices p (filterMut filter f list)
  | none => .ok []

end Usbip
