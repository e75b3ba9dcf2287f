import Verif.Model.NusbMutex
import Verif.Spec.Nusb
import Verif.Spec.Attended
/-!
# Specification: a host uses a device that is shared through nusb (C102)

The two ends: what the host's USB core asks for and is given back, and what is called of nusb.
-/

namespace Usbip.Spec
open Usbip

/-- What a request for `dev` makes of the shared device `o`: a nusb call, a crash, or nothing; `via h` is the shared device handler `h`
works on. -/
def nusbRequest (via : HandlerId → Option HandlerId) (o : HandlerId) (dev : Device) : Cmd → NusbDoes
  | .submit header _ len _ _ _ setup data _ =>
    match Job.call ⟨dev, header, len, setup, data⟩ with
    | some call => if via call.target = some o then nusbDoes (fun _ => true) (fun _ => true) call else .nothing
    | none => .nothing
  | _ => .nothing

/-- The call, if it is one. -/
def NusbDoes.called : NusbDoes → Option NusbCall
  | .call c => some c
  | _ => none

/-- It is a crash. -/
def NusbDoes.Crashes (x : NusbDoes) : Prop := ∃ h, x = .crash h

/-- What nusb answers to calls one after the other, if the device is in state `t` at first: every call goes well for the host, with the
bytes that were read. -/
def nusbAnswers {τ : Type} (host : NusbHost τ) : τ → List NusbCall → List (NusbCall × Nat × Bytes)
  | _, [] => []
  | t, c :: cs => (c, 0, readBytes (c.answer host t)) :: nusbAnswers host (c.after host t) cs

/-- The transfers given back to the host that stand for nusb calls: which call, the status, and the data. -/
def nusbReturned (via : HandlerId → Option HandlerId) (o : HandlerId) (dev : Device) (d : Driver) : List (NusbCall × Nat × Bytes) :=
  d.done.filterMap (fun g => ((nusbRequest via o dev (g.urb.cmd d.devid g.seq)).called).map (fun c => (c, g.status, g.data)))

/-- ... and those that were asked for. -/
def nusbWanted (via : HandlerId → Option HandlerId) (o : HandlerId) (dev : Device) (d : Driver) : List NusbCall :=
  d.issued.filterMap (fun g => (nusbRequest via o dev (g.2.cmd d.devid g.1)).called)

/-- The recorded nusb of the shared devices. -/
def watched {τ : Type} (host : HandlerId → NusbHost τ) (o h : HandlerId) : NusbLib (τ × List NusbCall) :=
  watchNusb h ((host o).at h)

section
variable {σ τ : Type} {via : HandlerId → Option HandlerId} {lib : HandlerId → HandlerId → NusbLib (τ × List NusbCall)} {code : Code σ}

/-- The nusb calls that have been made for device `o`. -/
def nusbMade (s : Machine (nusbCode via lib code)) (o : HandlerId) : List NusbCall :=
  (s.whole.fine.cfg.shared.world.user o).2.2

/-- The device `dev` has the bus id the host asks for, and handlers that work on `o`; of all devices the server is ever given it is the only
one that has this bus id or such handlers, and it is not given twice.  The application does not use nusb for the device itself. -/
structure SharesNusb {env : Env (HandlerId → σ × (τ × List NusbCall))} {p : Profile} {s0 : Machine (nusbCode via lib code)}
    (e : MachineExec (nusbCode via lib code) env p s0) (devices : List Device) (dev : Device) (o : HandlerId) (busid : Bytes) : Prop where
  named : dev.busId = cstr busid
  only : ∀ n, ∀ d ∈ devicesBy e.label devices n, ∀ h ∈ handlersOf d, via h = some o → d = dev
  single : ∀ n, Single dev (devicesBy e.label devices n)
  untouched : ∀ n a e0, (e.state n).whole.fine.app a ≠ some (o, e0)

end

end Usbip.Spec
