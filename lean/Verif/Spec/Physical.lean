import Verif.Model.HostMutex
import Verif.Spec.Attended
/-!
# Specification: a host uses a device that is shared through libusb (C97)

The two ends: what the host's USB core asks for and is given back, and what is called of libusb.
-/

namespace Usbip.Spec
open Usbip

/-- The libusb call a handler call stands for. -/
def libCall : HCall → Option LibCall
  | .iface _ _ ep len setup data => ifaceCall ep len setup data
  | .dev _ len setup data => some (devCall len setup data)

/-- The libusb call on handle `o` that a request for `dev` stands for; `host h` is the handle handler `h` works on. -/
def usbRequest (host : HandlerId → Option HandlerId) (o : HandlerId) (dev : Device) : Cmd → Option LibCall
  | .submit header _ len _ _ _ setup data _ =>
    match Job.call ⟨dev, header, len, setup, data⟩ with
    | some call => if host call.target = some o then libCall call else none
    | none => none
  | _ => none

/-- What libusb answers to calls one after the other, if it is in state `t` at first: every call goes well for the host, with the
bytes that were read. -/
def usbAnswers {τ : Type} (lib : RusbLib τ) : τ → List LibCall → List (LibCall × Nat × Bytes)
  | _, [] => []
  | t, c :: cs => (c, 0, readBytes (c.answer lib t)) :: usbAnswers lib (c.after lib t) cs

/-- The transfers given back to the host that stand for libusb calls: which call, the status, and the data. -/
def usbReturned (host : HandlerId → Option HandlerId) (o : HandlerId) (dev : Device) (d : Driver) : List (LibCall × Nat × Bytes) :=
  d.done.filterMap (fun g => (usbRequest host o dev (g.urb.cmd d.devid g.seq)).map (fun c => (c, g.status, g.data)))

/-- ... and those that were asked for. -/
def usbWanted (host : HandlerId → Option HandlerId) (o : HandlerId) (dev : Device) (d : Driver) : List LibCall :=
  d.issued.filterMap (fun g => usbRequest host o dev (g.2.cmd d.devid g.1))

section
variable {σ τ : Type} {host : HandlerId → Option HandlerId} {lib : HandlerId → RusbLib (τ × List LibCall)} {code : Code σ}

/-- The libusb calls that have been made on handle `o`. -/
def usbCalls (s : Machine (hostCode host lib code)) (o : HandlerId) : List LibCall :=
  (s.whole.fine.cfg.shared.world.user o).2.dev.2

/-- The device `dev` has the bus id the host asks for, and handlers that work on handle `o`; of all devices the server is ever given it is
the only one that has this bus id or such handlers, and it is not given twice.  The application does not use the handle itself. -/
structure Shares {env : Env (HandlerId → σ × Handle (τ × List LibCall))} {p : Profile} {s0 : Machine (hostCode host lib code)}
    (e : MachineExec (hostCode host lib code) env p s0) (devices : List Device) (dev : Device) (o : HandlerId) (busid : Bytes) : Prop where
  named : dev.busId = cstr busid
  only : ∀ n, ∀ d ∈ devicesBy e.label devices n, ∀ h ∈ handlersOf d, host h = some o → d = dev
  single : ∀ n, Single dev (devicesBy e.label devices n)
  untouched : ∀ n a e0, (e.state n).whole.fine.app a ≠ some (o, e0)

end

end Usbip.Spec
