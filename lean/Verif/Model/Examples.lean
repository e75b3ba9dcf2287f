import Verif.Model.Server
import Verif.Model.Hid
import Verif.Model.Cdc
/-!
# Servers with the bundled handlers; the example programs

`examples/hid_keyboard.rs` and `examples/cdc_acm_serial.rs`: a server with one device, and a main
loop that feeds the device's handler.  `examples/host.rs` only calls `new_from_host` (modelled in
`Verif.Model.Host`) and sleeps.
-/

namespace Usbip

/-- One handler object with state `τ` and code `obj`, registered as interface handler number `h`,
beside arbitrary other handlers with state `σ`.  The other handlers do not touch the object: it is
behind its own mutex (`Arc<Mutex<Box<dyn UsbInterfaceHandler>>>`, src/interface.rs:15) and only
code that has the `Arc` can reach it. -/
def hosting {σ τ} (obj : Endpoint → SetupPacket → τ → HRes × τ) (h : Nat) (env : Env σ) :
    Env (σ × τ) where
  iface h' i e l s d u :=
    if h' = h then ((obj e s u.2).1, (u.1, (obj e s u.2).2))
    else ((env.iface h' i e l s d u.1).1, ((env.iface h' i e l s d u.1).2, u.2))
  dev h' l s d u := ((env.dev h' l s d u.1).1, ((env.dev h' l s d u.1).2, u.2))

/-- src/hid.rs:91-142 as a handler object. -/
def keyboardObj (e : Endpoint) (s : SetupPacket) (k : Keyboard) : HRes × Keyboard := k.handleUrb e s

/-- src/cdc.rs:52-85 as a handler object. -/
def serialObj (e : Endpoint) (_ : SetupPacket) (c : Cdc) : HRes × Cdc := c.handleUrb e

/-- What can happen to a server with such an object: the application uses its `Arc` to act on the
object (`α` says how), or anything else.  The `Arc` kept by examples/hid_keyboard.rs:9-12, 34 and
examples/cdc_acm_serial.rs:9-11, 28. -/
inductive HostedEvent (σ α : Type) where
  | app (a : α)
  | server (e : Event σ)

/-- The same as a server event.  examples/hid_keyboard.rs:34-42, examples/cdc_acm_serial.rs:28-35;
src/lib.rs:356-549 for the rest. -/
def HostedEvent.event {σ τ α} (act : α → τ → τ) : HostedEvent σ α → Event (σ × τ)
  | .app a => .user (fun u => (u.1, act a u.2))
  | .server (.connect c i) => .connect c i
  | .server (.iterate c w) => .iterate c w
  | .server (.cancel c) => .cancel c
  | .server (.addDevice d) => .addDevice d
  | .server (.removeDevice b) => .removeDevice b
  | .server (.user f crash) => .user (fun u => (f u.1, u.2)) crash

/-- `pending_key_events.push_back` (examples/hid_keyboard.rs:39-40). -/
def Keyboard.push (r : KeyReport) (k : Keyboard) : Keyboard := { k with pending := k.pending ++ [r] }

/-- `tx_buffer.push` for several bytes (examples/cdc_acm_serial.rs:33). -/
def Cdc.write (bs : Bytes) (c : Cdc) : Cdc := { c with txBuffer := c.txBuffer ++ bs }

/-! ## The example programs -/

/-- There is no other handler in the examples.  examples/hid_keyboard.rs:13-27,
examples/cdc_acm_serial.rs:12-21: one interface, no device handler. -/
def noHandlers : Env Unit where
  iface _ _ _ _ _ _ u := (.panic, u)
  dev _ _ _ _ u := (.panic, u)

/-- examples/hid_keyboard.rs:14-26: the device. `ClassCode::HID as u8` is 3 (src/consts.rs:20-24). -/
def exampleKeyboard (p : Profile) : Outcome Device := do
  let d ← Device.new p 0
  d.withInterface p 3 0x00 0x00 (some "Test HID".toList)
    [{ address := 0x81, attributes := 0x03, maxPacketSize := 0x08, interval := 10 }]
    0 (some Keyboard.new.classDescriptor)

/-- examples/cdc_acm_serial.rs:13-20: the device. `ClassCode::CDC as u8` is 2. -/
def exampleSerial (p : Profile) : Outcome Device := do
  let d ← Device.new p 0
  d.withInterface p 2 cdcAcmSubclass 0x00 (some "Test CDC ACM".toList) Cdc.endpoints
    0 (some Cdc.classDescriptor)

/-- A fresh process: no mutex poisoned.  examples/hid_keyboard.rs:9-12, examples/cdc_acm_serial.rs:9-11: the
only mutexes. -/
def freshWorld {τ} (t : τ) : World (Unit × τ) := ⟨((), t), fun _ => false, fun _ => false⟩

/-- What happens in an example program: something on a connection, or the main loop comes round. 
examples/hid_keyboard.rs:29-43, examples/cdc_acm_serial.rs:23-36. -/
inductive ProgEvent where
  | connect (c : Nat) (input : Stream)
  | iterate (c : Nat) (w : WriteRes)
  | cancel (c : Nat)
  | tick
  deriving Repr

/-- One step of an example program with handler object `obj`, whose main loop does `feed` once a
second.  `none` is a process that has ended: `handler.lock().unwrap()`
(examples/hid_keyboard.rs:34, examples/cdc_acm_serial.rs:28) panics in `main` when the mutex is
poisoned, and a panic in `main` ends the process. -/
def progStep {τ} (obj : Endpoint → SetupPacket → τ → HRes × τ) (feed : τ → τ) (p : Profile) :
    Option (Sys (Unit × τ)) → ProgEvent → Option (Sys (Unit × τ))
  | none, _ => none
  | some s, .connect c i => some (s.step (hosting obj 0 noHandlers) p (.connect c i))
  | some s, .iterate c w => some (s.step (hosting obj 0 noHandlers) p (.iterate c w))
  | some s, .cancel c => some (s.step (hosting obj 0 noHandlers) p (.cancel c))
  | some s, .tick =>
    if s.shared.world.ifPoisoned 0 then none
    else some (s.step (hosting obj 0 noHandlers) p (.user (fun u => (u.1, feed u.2))))

/-- A whole run of an example program.  examples/hid_keyboard.rs:7-44, examples/cdc_acm_serial.rs:7-37. -/
def progRun {τ} (obj : Endpoint → SetupPacket → τ → HRes × τ) (feed : τ → τ) (p : Profile)
    (s : Option (Sys (Unit × τ))) (es : List ProgEvent) : Option (Sys (Unit × τ)) :=
  es.foldl (progStep obj feed p) s

/-- examples/hid_keyboard.rs:39-40: `push_back(from_ascii(b'1'))`. -/
def keyboardFeed (k : Keyboard) : Keyboard :=
  match KeyReport.fromAscii 49 with
  | .ok r => k.push r
  | _ => k

/-- examples/cdc_acm_serial.rs:33: `tx_buffer.push(b'a')`. -/
def serialFeed (c : Cdc) : Cdc := c.write [97]

/-- examples/hid_keyboard.rs: the program at start (the device is built without a panic, see
`C60_starts`). -/
def keyboardProgram (p : Profile) : Option (Sys (Unit × Keyboard)) :=
  match exampleKeyboard p with
  | .ok d => some (Sys.init [d] (freshWorld Keyboard.new))
  | _ => none

/-- examples/cdc_acm_serial.rs: the program at start. -/
def serialProgram (p : Profile) : Option (Sys (Unit × Cdc)) :=
  match exampleSerial p with
  | .ok d => some (Sys.init [d] (freshWorld Cdc.new))
  | _ => none

end Usbip
