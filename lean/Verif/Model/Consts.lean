import Verif.Model.Basic
/-!
# src/consts.rs, src/endpoint.rs, src/setup.rs, src/interface.rs
-/

namespace Usbip

/-- src/consts.rs:5-14 `UsbSpeed` (numeric values; only `High` is used, by `UsbDevice::new`). -/
def usbSpeedHigh : UInt32 := 3

/-- src/consts.rs:48-53 `EndpointAttributes`. -/
inductive EndpointAttributes where
  | control | isochronous | bulk | interrupt
  deriving DecidableEq, Repr

/-- src/consts.rs:46-53: discriminants (`EndpointAttributes::X as u8`). -/
def EndpointAttributes.toU8 : EndpointAttributes → UInt8
  | .control => 0
  | .isochronous => 1
  | .bulk => 2
  | .interrupt => 3

/-- src/consts.rs:46: derived `FromPrimitive::from_u8`. -/
def EndpointAttributes.fromU8 (n : UInt8) : Option EndpointAttributes :=
  if n = 0 then some .control
  else if n = 1 then some .isochronous
  else if n = 2 then some .bulk
  else if n = 3 then some .interrupt
  else none

/-- `rusb::Direction` (re-exported at src/consts.rs:57). -/
inductive Direction where
  | in | out
  deriving DecidableEq, Repr

/-- src/consts.rs:60 `EP0_MAX_PACKET_SIZE`. -/
def ep0MaxPacketSize : UInt16 := 64

/-- src/consts.rs:66-78 `StandardRequest`. -/
inductive StandardRequest where
  | getStatus | clearFeature | setFeature | setAddress | getDescriptor | setDescriptor
  | getConfiguration | setConfiguration | getInterface | setInterface | synchFrame
  deriving DecidableEq, Repr

/-- src/consts.rs:64: derived `FromPrimitive::from_u8`. -/
def StandardRequest.fromU8 (n : UInt8) : Option StandardRequest :=
  if n = 0 then some .getStatus
  else if n = 1 then some .clearFeature
  else if n = 3 then some .setFeature
  else if n = 5 then some .setAddress
  else if n = 6 then some .getDescriptor
  else if n = 7 then some .setDescriptor
  else if n = 8 then some .getConfiguration
  else if n = 9 then some .setConfiguration
  else if n = 10 then some .getInterface
  else if n = 11 then some .setInterface
  else if n = 12 then some .synchFrame
  else none

/-- src/consts.rs:84-97 `DescriptorType`. -/
inductive DescriptorType where
  | device | configuration | string | interface | endpoint | deviceQualifier
  | otherSpeedConfiguration | interfacePower | otg | debug | interfaceAssociation | bos
  deriving DecidableEq, Repr

/-- src/consts.rs:84-97: discriminants. -/
def DescriptorType.toU8 : DescriptorType → UInt8
  | .device => 1
  | .configuration => 2
  | .string => 3
  | .interface => 4
  | .endpoint => 5
  | .deviceQualifier => 6
  | .otherSpeedConfiguration => 7
  | .interfacePower => 8
  | .otg => 9
  | .debug => 0xA
  | .interfaceAssociation => 0xB
  | .bos => 0xF

/-- src/consts.rs:82: derived `FromPrimitive::from_u16`. -/
def DescriptorType.fromU16 (n : UInt16) : Option DescriptorType :=
  if n = 1 then some .device
  else if n = 2 then some .configuration
  else if n = 3 then some .string
  else if n = 4 then some .interface
  else if n = 5 then some .endpoint
  else if n = 6 then some .deviceQualifier
  else if n = 7 then some .otherSpeedConfiguration
  else if n = 8 then some .interfacePower
  else if n = 9 then some .otg
  else if n = 0xA then some .debug
  else if n = 0xB then some .interfaceAssociation
  else if n = 0xF then some .bos
  else none

/-- src/endpoint.rs:6-15 `UsbEndpoint`. -/
structure Endpoint where
  address : UInt8
  attributes : UInt8
  maxPacketSize : UInt16
  interval : UInt8
  deriving DecidableEq, Repr

/-- src/endpoint.rs:4 `#[derive(Default)]`. -/
def Endpoint.default : Endpoint := ⟨0, 0, 0, 0⟩

/-- src/endpoint.rs:19-25 `UsbEndpoint::direction`. -/
def Endpoint.direction (e : Endpoint) : Direction :=
  if e.address &&& 0x80 ≠ 0 then .in else .out

/-- src/endpoint.rs:28-30 `UsbEndpoint::is_ep0`. -/
def Endpoint.isEp0 (e : Endpoint) : Bool :=
  e.address &&& 0x7F == 0

/-- src/setup.rs:7-18 `SetupPacket`. -/
structure SetupPacket where
  requestType : UInt8
  request : UInt8
  value : UInt16
  index : UInt16
  length : UInt16
  deriving DecidableEq, Repr

/-- src/setup.rs:22-30 `SetupPacket::parse`.  The argument has type `[u8; 8]` in Rust; lists of
another length cannot occur and are given an arbitrary value. -/
def SetupPacket.parse (setup : Bytes) : SetupPacket :=
  match setup with
  | [s0, s1, s2, s3, s4, s5, s6, s7] =>
    { requestType := s0
      request := s1
      value := (s3.toUInt16 <<< 8) ||| s2.toUInt16
      index := (s5.toUInt16 <<< 8) ||| s4.toUInt16
      length := (s7.toUInt16 <<< 8) ||| s6.toUInt16 }
  | _ => ⟨0, 0, 0, 0, 0⟩

/-- src/interface.rs:6-16 `UsbInterface`.  The `Arc<Mutex<Box<dyn UsbInterfaceHandler>>>` is the
identity (`handler`) of a shared handler object; its state lives in the `World`. -/
structure Iface where
  interfaceClass : UInt8
  interfaceSubclass : UInt8
  interfaceProtocol : UInt8
  endpoints : List Endpoint
  stringInterface : UInt8
  classSpecificDescriptor : Bytes
  handler : Nat
  deriving DecidableEq, Repr

/-- What a call to user handler code can do (src/interface.rs:27-34, src/device.rs:537-542):
return data, return an error, or panic.  Simplification: handlers terminate. -/
inductive HRes where
  | ok (data : Bytes)
  | err (e : ErrKind)
  | panic
  deriving DecidableEq, Repr

/-- `HRes` as an `Outcome`.  The result of `handle_urb` handed on at src/device.rs:471-479, 507-515,
523-524. -/
def HRes.toOutcome : HRes → Outcome Bytes
  | .ok d => .ok d
  | .err e => .err e
  | .panic => .panic

/-- The code behind every handler object: `dyn UsbInterfaceHandler::handle_urb`
(src/interface.rs:27) and `dyn UsbDeviceHandler::handle_urb` (src/device.rs:537), as arbitrary
functions of the handler's identity, its arguments and an arbitrary state `σ` of everything
outside the library. -/
structure Env (σ : Type) where
  iface : (handler : Nat) → Iface → Endpoint → (transferBufferLength : UInt32) → SetupPacket →
    (req : Bytes) → σ → HRes × σ
  dev : (handler : Nat) → (transferBufferLength : UInt32) → SetupPacket → (req : Bytes) → σ →
    HRes × σ

/-- Handler state plus the poison flag of each handler's `std::sync::Mutex`.  src/device.rs:59,
src/interface.rs:15; what the objects hold is theirs. -/
structure World (σ : Type) where
  user : σ
  ifPoisoned : Nat → Bool
  devPoisoned : Nat → Bool

/-- A handler object: an interface handler (src/interface.rs:15) or a device handler (src/device.rs:59). -/
inductive HandlerId where
  | iface (handler : Nat)
  | dev (handler : Nat)
  deriving DecidableEq, Repr

/-- A thread panicked while it held the mutex.  Every later `lock().unwrap()` (src/device.rs:471, 478, 507,
514, 523) panics. -/
def World.poison {σ} (w : World σ) : HandlerId → World σ
  | .iface h => { w with ifPoisoned := fun k => if k = h then true else w.ifPoisoned k }
  | .dev h => { w with devPoisoned := fun k => if k = h then true else w.devPoisoned k }

/-- A thread of the application has used handler objects (through its own `Arc`s, as in
examples/hid_keyboard.rs:34-41): it has changed their state by `f`, and may have panicked meanwhile with the mutex
of `crash` held. -/
def World.used {σ} (w : World σ) (f : σ → σ) (crash : Option HandlerId) : World σ :=
  match crash with
  | none => { w with user := f w.user }
  | some h => World.poison { w with user := f w.user } h

/-- `intf.handler.lock().unwrap()` followed by `handler.handle_urb(...)`
(src/device.rs:471-472, 507-508, 523-524): a poisoned mutex panics; a panic inside poisons it. -/
def Env.callIface {σ} (env : Env σ) (intf : Iface) (ep : Endpoint) (len : UInt32)
    (setup : SetupPacket) (req : Bytes) (w : World σ) : Outcome Bytes × World σ :=
  if w.ifPoisoned intf.handler then (.panic, w)
  else
    let (r, u) := env.iface intf.handler intf ep len setup req w.user
    match r with
    | .panic =>
      (.panic, { w with user := u
                        ifPoisoned := fun h => if h = intf.handler then true else w.ifPoisoned h })
    | r => (r.toOutcome, { w with user := u })

/-- `lock.lock().unwrap()` followed by `handler.handle_urb(...)` for a device handler
(src/device.rs:477-479, 513-515). -/
def Env.callDev {σ} (env : Env σ) (h : Nat) (len : UInt32) (setup : SetupPacket) (req : Bytes)
    (w : World σ) : Outcome Bytes × World σ :=
  if w.devPoisoned h then (.panic, w)
  else
    let (r, u) := env.dev h len setup req w.user
    match r with
    | .panic =>
      (.panic, { w with user := u
                        devPoisoned := fun h' => if h' = h then true else w.devPoisoned h' })
    | r => (r.toOutcome, { w with user := u })

end Usbip
