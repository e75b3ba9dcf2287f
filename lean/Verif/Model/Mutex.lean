import Verif.Model.Locks
import Verif.Spec.Locks
import Verif.Spec.Hosted
import Verif.Lemmas.Urb
/-!
# The mutexes of the handlers

In `Verif.Model.Locks` a handler invocation is one step.  Here handler code runs step by step while
other tasks and the application go on, each handler object behind its own `std::sync::Mutex`
(src/device.rs:471-472, 478-479, 507-508, 514-515, 523-524; `Arc<Mutex<Box<dyn ...>>>`,
src/interface.rs:15, src/device.rs:59).  Several submits can be in handler code at the same time, since they hold the
lock on the used devices only for reading (src/lib.rs:411).

Each object has its own state of type `τ`: the state of everything outside the server is
`HandlerId → τ`.  Usually a handler has an object of its own.  The handlers of a device shared through libusb have one
together, the device handle, with a mutex of its own (src/host.rs:7, 31, 96, 117; src/lib.rs:198, 224-227, 275-277).
Simplifications: handler code touches nothing but its object; a handler takes its own mutex and that of the object
in one step (in between it holds the first and waits for the second, and touches nothing).
-/

namespace Usbip
open Spec

/-- Handler code as a program: where it starts for a call, what one step does to its local variables and to its
object, and whether (and how) it has returned or panicked.  `obj` says which object a handler works on (named
after one of the handlers that do).  The bodies of `handle_urb`: src/hid.rs:91-142, src/cdc.rs:52-85,
src/host.rs:17-84, 108-145, 173-225, 257-302, or an application's (src/interface.rs:19-45). -/
structure Code (τ : Type) where
  Local : Type
  obj : HandlerId → HandlerId := fun h => h
  start : HCall → Local
  step : Local → τ → Local × τ
  result : Local → Option HRes

/-- A task that is inside handler code: which call, its local variables, and what it does with the
result.  `entry` is a ghost: the state the object was in when its mutex was taken.  src/device.rs:471-479,
507-515, 523-524. -/
structure Inside {τ : Type} (code : Code τ) where
  call : HCall
  loc : code.Local
  cont : Outcome Bytes → Task (HandlerId → τ)
  entry : τ

/-- The server with its tasks, the tasks that are inside handler code, and the threads of the
application that use an object, with a handler's mutex held (examples/hid_keyboard.rs:34,
examples/cdc_acm_serial.rs:28), with the state the object was in when they took it (a ghost). -/
structure Fine {τ : Type} (code : Code τ) where
  cfg : Cfg (HandlerId → τ)
  inside : Nat → Option (Inside code)
  app : Nat → Option (HandlerId × τ)

/-- Nobody uses the object.  Its mutex (src/device.rs:59, src/interface.rs:15) is not held. -/
def Fine.free {τ} {code : Code τ} (s : Fine code) (o : HandlerId) : Prop :=
  (∀ t i, s.inside t = some i → code.obj i.call.target ≠ o) ∧ ∀ a e, s.app a ≠ some (o, e)

/-- The step `commit g k` of a program is handler call `c`: locking its mutex, running its code,
releasing the mutex, going on according to the result (src/lib.rs:489-506). -/
def Runs {σ} (env : Env σ) (g : World σ → World σ) (k : World σ → Task σ) (c : HCall)
    (cont : Outcome Bytes → Task σ) : Prop :=
  ∀ w, g w = (env.invoke w c).2 ∧ k w = cont (env.invoke w c).1

/-- The handler call the connection's next command makes (src/lib.rs:461-489, src/device.rs:278-533), if any:
a submit addressed to a handler.  Simplification: written with the specification of who a URB is
addressed to; `C75_calls` shows that the programs make exactly these calls. -/
def Conn.call (p : Profile) (x : Conn) (used : List (Bytes × Device)) : Option HCall :=
  match readCommand p x.input with
  | .ok (.submit h _ len _ _ _ setup data _, _) =>
    match x.current.bind (fun id => amGet id used) with
    | some device => Job.call ⟨device, h, len, setup, data⟩
    | none => none
  | _ => none

/-- The handler call a program makes at its `commit`, if any.  src/device.rs:471-479, 507-515, 523-524. -/
def Cfg.call {σ} (p : Profile) (s : Cfg σ) (f : Flight σ) : Option HCall :=
  match f.owner.bind s.conns with
  | some x => x.call p s.shared.used
  | none => none

/-- Change the server's world.  What the objects of src/device.rs:59, src/interface.rs:15 hold. -/
def Cfg.withWorld {σ} (s : Cfg σ) (w : World σ) : Cfg σ := { s with shared := { s.shared with world := w } }

/-- Change the state of one object.  `&mut self` of `handle_urb` (src/interface.rs:26-33,
src/device.rs:536-545). -/
def Fine.setObj {τ} {code : Code τ} (s : Fine code) (o : HandlerId) (v : τ) : Fine code :=
  { s with cfg := s.cfg.withWorld { s.cfg.shared.world with user := upd s.cfg.shared.world.user o v } }

/-- The program goes on after its `commit`.  src/lib.rs:491-507. -/
def Cfg.resume {σ} (s : Cfg σ) (t : Nat) (f : Flight σ) (k : Task σ) : Cfg σ :=
  s.put t (some { f with code := k, committed := true })

/-- One step.  The label is that of the lock-level model; steps it does not have are `none`.

`outer`: anything that involves no handler.  A program inside handler code does nothing else, and
cannot be dropped (there is no await in it).  `enter`: the mutex is taken.  `poisoned`: `lock()` reports that a
thread has panicked with the mutex, and `unwrap()` panics (whether or not another handler is using the object).  `work`: a step of handler code.
`leave`: the handler returns, or panics, and the mutex is released.  `appEnter`, `appWork`,
`appLeave`: the application takes the mutex, changes the object in any way in any number of steps,
and releases it; `appCrash`: it panics instead, which releases the mutex and poisons that of the handler `h`
through which it used the object; `appPanic`: the same when it had the mutex of `h` but did not use the object, which
another handler may be using.  src/device.rs:471-479, 507-515, 523-524 for `enter`, `poisoned`, `work` and `leave`;
src/lib.rs:356-524 for the rest. -/
inductive Fine.Step {τ} (code : Code τ) (env : Env (HandlerId → τ)) (p : Profile) :
    Fine code → Option (Label (HandlerId → τ)) → Fine code → Prop
  | outer (s : Fine code) (lb) (cfg' : Cfg (HandlerId → τ)) (st : Cfg.Step env p s.cfg lb cfg')
      (ho : ∀ t, prog lb = some t → s.inside t = none) (hu : ∀ f crash, lb ≠ .outside (.user f crash))
      (he : ∀ t ev f, lb = .effect t ev → s.cfg.flights t = some f → s.cfg.call p f = none) :
      Step code env p s (some lb) { s with cfg := cfg' }
  | enter (s : Fine code) (t : Nat) (f : Flight (HandlerId → τ)) (g k) (c : HCall) (cont)
      (ht : s.cfg.flights t = some f) (hk : f.code = .commit g k) (hc : s.cfg.call p f = some c)
      (hr : Runs env g k c cont)
      (hi : s.inside t = none) (hf : s.free (code.obj c.target)) (hp : crashed s.cfg.shared.world c.target = false) :
      Step code env p s none { s with
        inside := upd s.inside t (some ⟨c, code.start c, cont, s.cfg.shared.world.user (code.obj c.target)⟩) }
  | poisoned (s : Fine code) (t : Nat) (f : Flight (HandlerId → τ)) (g k) (c : HCall) (cont)
      (ht : s.cfg.flights t = some f) (hk : f.code = .commit g k) (hc : s.cfg.call p f = some c)
      (hr : Runs env g k c cont)
      (hi : s.inside t = none) (hp : crashed s.cfg.shared.world c.target = true) :
      Step code env p s (some (.effect t f.ev)) { s with cfg := s.cfg.resume t f (cont .panic) }
  | work (s : Fine code) (t : Nat) (i : Inside code) (ht : s.inside t = some i)
      (hr : code.result i.loc = none) :
      Step code env p s none (({ s with
        inside := upd s.inside t
          (some { i with loc := (code.step i.loc (s.cfg.shared.world.user (code.obj i.call.target))).1 }) } : Fine code).setObj
            (code.obj i.call.target) (code.step i.loc (s.cfg.shared.world.user (code.obj i.call.target))).2)
  | leave (s : Fine code) (t : Nat) (f : Flight (HandlerId → τ)) (i : Inside code) (r : HRes)
      (ht : s.inside t = some i) (hf : s.cfg.flights t = some f) (hr : code.result i.loc = some r) :
      Step code env p s (some (.effect t f.ev)) { s with
        cfg := (s.cfg.resume t f (i.cont r.toOutcome)).withWorld
          (if r = .panic then s.cfg.shared.world.poison i.call.target else s.cfg.shared.world)
        inside := upd s.inside t none }
  | appEnter (s : Fine code) (a : Nat) (o : HandlerId) (ha : s.app a = none) (hf : s.free o) :
      Step code env p s none { s with app := upd s.app a (some (o, s.cfg.shared.world.user o)) }
  | appWork (s : Fine code) (a : Nat) (o : HandlerId) (e v : τ) (ha : s.app a = some (o, e)) :
      Step code env p s none (s.setObj o v)
  | appLeave (s : Fine code) (a : Nat) (o : HandlerId) (e : τ) (ha : s.app a = some (o, e)) :
      Step code env p s (some (.outside (.user (fun u => upd u o (s.cfg.shared.world.user o)))))
        { s with app := upd s.app a none }
  | appCrash (s : Fine code) (a : Nat) (h : HandlerId) (e : τ) (ha : s.app a = some (code.obj h, e)) :
      Step code env p s (some (.outside (.user (fun u => upd u (code.obj h) (s.cfg.shared.world.user (code.obj h))) (some h))))
        { s with cfg := s.cfg.withWorld (s.cfg.shared.world.poison h), app := upd s.app a none }
  | appPanic (s : Fine code) (h : HandlerId) (hf : ∀ t i, s.inside t = some i → i.call.target ≠ h) :
      Step code env p s (some (.outside (.user (fun u => u) (some h))))
        { s with cfg := s.cfg.withWorld (s.cfg.shared.world.poison h) }

/-- What can be reached, with the labels on the way.  Executions of src/lib.rs:356-524 with
src/device.rs:471-524. -/
inductive Fine.Reach {τ} (code : Code τ) (env : Env (HandlerId → τ)) (p : Profile) (s0 : Fine code) :
    List (Label (HandlerId → τ)) → Fine code → Prop
  | refl : Reach code env p s0 [] s0
  | tail {ls s lb s'} (h : Reach code env p s0 ls s) (st : Fine.Step code env p s lb s') :
      Reach code env p s0 (ls ++ lb.toList) s'

/-- Nothing in flight.  src/lib.rs:50-55. -/
def Fine.init {τ} (code : Code τ) (devices : List Device) (w : World (HandlerId → τ)) : Fine code :=
  { cfg := Cfg.init devices w, inside := fun _ => none, app := fun _ => none }

end Usbip
