import Verif.Spec.Driver
import Verif.Spec.Exports
import Verif.Spec.Hosted
import Verif.Spec.Isolation
/-!
# Specification: what is put into a handler object, and what a host reads from the device (C93, C94)

A process with an application that puts things into a handler object, and a Linux host that has attached the device: the
two ends, with nothing of what is in between.
-/

namespace Usbip.Spec
open Usbip

/-- The handler with number `h` works like `obj`, on what `view` shows of its object; no other handler changes that
object. -/
structure Serves {τ β : Type} (code : Code τ) (env : Env (HandlerId → τ)) (h : Nat) (view : τ → β)
    (obj : Endpoint → SetupPacket → β → HRes × β) : Prop where
  call : ∀ i ep len setup data u,
    (env.iface h i ep len setup data u).1 = (obj ep setup (view (u (code.obj (.iface h))))).1 ∧
    view ((env.iface h i ep len setup data u).2 (code.obj (.iface h))) = (obj ep setup (view (u (code.obj (.iface h))))).2
  others : ∀ (call : HCall) u, call.target ≠ .iface h → (call.answer env u).2 (code.obj (.iface h)) = u (code.obj (.iface h))

/-- What the application does to object `o`: `acts n` is what a thread has done when it lets go of the object in step `n`, in that
order; nothing in other steps. -/
structure Uses {τ α β : Type} {code : Code τ} {env : Env (HandlerId → τ)} {p : Profile} {s0 : Machine code}
    (e : MachineExec code env p s0) (o : HandlerId) (view : τ → β) (act : α → β → β) (acts : Nat → List α) : Prop where
  done : ∀ n a e0, (e.state n).whole.fine.app a = some (o, e0) → (e.state (n + 1)).whole.fine.app a = none →
    view ((e.state n).whole.fine.cfg.shared.world.user o) = (acts n).foldl (fun b x => act x b) (view e0)
  only : ∀ n, (∀ a e0, (e.state n).whole.fine.app a = some (o, e0) → (e.state (n + 1)).whole.fine.app a ≠ none) → acts n = []

/-- What the application has done before time `n`. -/
def actsBy {α : Type} (acts : Nat → List α) : Nat → List α
  | 0 => []
  | n + 1 => actsBy acts n ++ acts n

/-- The device `dev` has the bus id the host asks for, and has handler `h`; of all devices the server is ever given it is the only one
that has this bus id or this handler, and it is not given twice. -/
structure Sole {τ : Type} {code : Code τ} {env : Env (HandlerId → τ)} {p : Profile} {s0 : Machine code}
    (e : MachineExec code env p s0) (devices : List Device) (dev : Device) (h : Nat) (busid : Bytes) : Prop where
  named : dev.busId = cstr busid
  only : ∀ n, ∀ d ∈ devicesBy e.label devices n, HandlerId.iface h ∈ handlersOf d → d = dev
  single : ∀ n, Single dev (devicesBy e.label devices n)

/-- The endpoint through which a request for `dev` reaches interface handler `h`. -/
def reached (dev : Device) (h : Nat) : Cmd → Option Endpoint
  | .submit header _ len _ _ _ setup data _ =>
    match Job.call ⟨dev, header, len, setup, data⟩ with
    | some (.iface h' _ ep _ _ _) => if h' = h then some ep else none
    | _ => none
  | _ => none

/-- The transfers with handler `h` that have been given back to the host: the endpoint, and the data. -/
def givenBack (dev : Device) (h : Nat) (d : Driver) : List (Endpoint × Bytes) :=
  d.done.filterMap (fun g => (reached dev h (g.urb.cmd d.devid g.seq)).map (fun ep => (ep, g.data)))

/-- ... and those that were asked for. -/
def wanted (dev : Device) (h : Nat) (d : Driver) : List Endpoint :=
  d.issued.filterMap (fun g => reached dev h (g.2.cmd d.devid g.1))

/-- The reports a host has read from a keyboard: what its polls were given back with, if not empty. -/
def reportsRead (dev : Device) (h : Nat) (d : Driver) : List Bytes :=
  (((givenBack dev h d).filter (fun r => decide (DataIn r.1))).map (·.2)).filter (fun b => !b.isEmpty)

/-- The bytes a host has read from a serial port. -/
def bytesRead (dev : Device) (h : Nat) (d : Driver) : Bytes :=
  ((givenBack dev h d).filter (fun r => decide (BulkIn r.1))).flatMap (·.2)

/-- Nobody but client `c` is ever accepted. -/
def Lone {τ} {code : Code τ} {env : Env (HandlerId → τ)} {p : Profile} {s0 : Machine code}
    (e : MachineExec code env p s0) (c : Nat) : Prop :=
  ∀ n c', c' ≠ c → (e.state n).front c' ≠ .accepted

end Usbip.Spec
