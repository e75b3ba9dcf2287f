import Verif.Model.Examples
import Verif.Model.Host
import Verif.Model.Listen
/-!
# The example programs as processes

`examples/host.rs`, `examples/hid_keyboard.rs`, `examples/cdc_acm_serial.rs`: `main` makes a server,
spawns one call of `usbip::server` as a task of its own, and goes round a loop that never ends.
-/

namespace Usbip

/-- What the example programs differ in: the handlers, the devices at start, the interface handler
whose mutex the main loop locks (none in examples/host.rs), and what it does with it. -/
structure Program (σ : Type) where
  env : Env σ
  devices : List Device
  world : World σ
  lock : Option Nat
  feed : σ → σ

/-- What can happen next in the process.  examples/hid_keyboard.rs:29-43, examples/cdc_acm_serial.rs:23-36.
-/
inductive MainEvent where
  /-- the spawned task runs for the first time and binds the address (src/lib.rs:528;
  examples/host.rs:10, examples/hid_keyboard.rs:29, examples/cdc_acm_serial.rs:23) -/
  | bind (ok : Bool)
  /-- a client connects to port 3240 -/
  | dial (c : Nat)
  | acceptOk
  | acceptErr
  | arrive (c : Nat) (bytes : Bytes)
  | hangup (c : Nat) (e : ErrKind)
  | iterate (c : Nat) (w : WriteRes)
  /-- the main loop comes round (examples/host.rs:12-15, examples/hid_keyboard.rs:31-43,
  examples/cdc_acm_serial.rs:25-36) -/
  | tick
  deriving Repr

/-- The same as an event of a process with calls of `server`; the only call has number 0.  Nothing in
the examples drops it: `tokio::spawn`'s handle is thrown away, which leaves the task running. 
examples/hid_keyboard.rs:29, examples/cdc_acm_serial.rs:23. -/
def MainEvent.proc {σ} (feed : σ → σ) : MainEvent → ProcEvent σ
  | .bind ok => .serve 0 ok
  | .dial c => .dial 0 c
  | .acceptOk => .acceptOk 0
  | .acceptErr => .acceptErr 0
  | .arrive c bs => .arrive c bs
  | .hangup c e => .hangup c e
  | .iterate c w => .iterate c w
  | .tick => .user feed

/-- One step.  `none` is a process that has ended: `handler.lock().unwrap()` panics in `main` when the
mutex is poisoned (examples/hid_keyboard.rs:34, examples/cdc_acm_serial.rs:28).  A panic in a spawned task
(the failed `bind` of src/lib.rs:528 among them) ends only that task. -/
def Program.step {σ} (P : Program σ) (p : Profile) : Option (Proc σ) → MainEvent → Option (Proc σ)
  | none, _ => none
  | some s, .tick =>
    match P.lock with
    | some h =>
      if s.net.sys.shared.world.ifPoisoned h then none else some (s.step P.env p (MainEvent.tick.proc P.feed))
    | none => some (s.step P.env p (MainEvent.tick.proc P.feed))
  | some s, e => some (s.step P.env p (e.proc P.feed))

/-- A whole run from the moment the main loop starts.  examples/hid_keyboard.rs:31-43,
examples/cdc_acm_serial.rs:25-36. -/
def Program.run {σ} (P : Program σ) (p : Profile) (es : List MainEvent) : Option (Proc σ) :=
  es.foldl (P.step p) (some (Proc.init P.devices P.world))

/-- An example program with one device `d`, handler object `obj` in state `t`, fed by `feed`. 
examples/hid_keyboard.rs:9-29, examples/cdc_acm_serial.rs:9-23. -/
def Program.feeding {τ} (obj : Endpoint → SetupPacket → τ → HRes × τ) (feed : τ → τ) (d : Device) (t : τ) :
    Program (Unit × τ) where
  env := hosting obj 0 noHandlers
  devices := [d]
  world := freshWorld t
  lock := some 0
  feed u := (u.1, feed u.2)

/-- examples/hid_keyboard.rs: building the device may fail with a panic in principle, see `C60_starts`. -/
def keyboardMain (p : Profile) : Outcome (Program (Unit × Keyboard)) := do
  return .feeding keyboardObj keyboardFeed (← exampleKeyboard p) Keyboard.new

/-- examples/cdc_acm_serial.rs -/
def serialMain (p : Profile) : Outcome (Program (Unit × Cdc)) := do
  return .feeding serialObj serialFeed (← exampleSerial p) Cdc.new

/-- examples/host.rs: `devices` is what enumerating the host's devices gives.  The main loop only sleeps. -/
def hostMain {σ} (p : Profile) (devices : Option (List RusbEntry)) (env : Env σ) (w : World σ) :
    Outcome (Program σ) := do
  return { env := env, devices := ← newFromHostWithFilter p devices (fun u _ => (true, u)) (),
           world := w, lock := none, feed := id }

end Usbip
