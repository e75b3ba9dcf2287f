import Verif.Spec.Found
/-!
# Specification: a host asks for a device nobody else asks for (C96)
-/

namespace Usbip.Spec
open Usbip

/-- The server has been given the device before it accepts client `c`. -/
def Offered {τ : Type} {code : Code τ} {env : Env (HandlerId → τ)} {p : Profile} {s0 : Machine code}
    (e : MachineExec code env p s0) (devices : List Device) (dev : Device) (c : Nat) : Prop :=
  ∀ n, (e.state n).front c = .accepted → dev ∈ devicesBy e.label devices n

/-- All that client `c` sends are requests from `said`. -/
def Speaks {τ : Type} {code : Code τ} {env : Env (HandlerId → τ)} {p : Profile} {s0 : Machine code}
    (e : MachineExec code env p s0) (c : Nat) (said : Nat → List Cmd) : Prop :=
  ∀ n, (∀ q ∈ said n, WellFormed true q) ∧ arrivedBy e.label c n <+: (said n).flatMap wireCmd

/-- Nobody but client `c` asks for the device with this bus id, and the application does not remove it.  Other clients may import
other devices, use them, ask for the list of devices, come and go; or they may send anything at all that does not have the bus id in it;
or never be accepted. -/
structure Unclaimed {τ : Type} {code : Code τ} {env : Env (HandlerId → τ)} {p : Profile} {s0 : Machine code}
    (e : MachineExec code env p s0) (c : Nat) (busid : Bytes) : Prop where
  others : ∀ c', c' ≠ c → (∃ n, (e.state n).front c' = .accepted) → (∃ said, Speaks e c' said ∧ ∀ n st b, Cmd.reqImport st b ∈ said n → cstr b ≠ cstr busid) ∨
    ∀ n, ¬ cstr busid <:+: arrivedBy e.label c' n
  kept : ∀ n lb, e.label n = some (.inner lb) → tcpEvent lb ≠ some (.removeDevice (cstr busid))

end Usbip.Spec
