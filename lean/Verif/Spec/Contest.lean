import Verif.Spec.Granted
/-!
# Specification: several hosts want the same device (C98)
-/

namespace Usbip.Spec
open Usbip

/-- Only the clients in `H` ask for the device with this bus id, and the application does not remove it.  Other clients may import
other devices, use them, ask for the list of devices, come and go; or they may send anything at all that does not have the bus id in it;
or never be accepted. -/
structure WantedBy {τ : Type} {code : Code τ} {env : Env (HandlerId → τ)} {p : Profile} {s0 : Machine code}
    (e : MachineExec code env p s0) (H : Nat → Prop) (id : Bytes) : Prop where
  others : ∀ c, ¬ H c → (∃ n, (e.state n).front c = .accepted) →
    (∃ said, Speaks e c said ∧ ∀ n st b, Cmd.reqImport st b ∈ said n → cstr b ≠ id) ∨ ∀ n, ¬ id <:+: arrivedBy e.label c n
  kept : ∀ n lb, e.label n = some (.inner lb) → tcpEvent lb ≠ some (.removeDevice id)

/-- The first answer to the client was that it has been given the device. -/
def Awarded (dev : Device) (log : List Handled) : Prop := ∃ g l, log = g :: l ∧ g.2.1 = .repImport 0 (some dev)

/-- The device is in the hands of client `c`: its connection is being served, or its task has ended without giving back the device that it
had, because it panicked, was dropped, or could not write. -/
def Keeps {τ : Type} {code : Code τ} (s : Machine code) (c : Nat) (dev : Device) : Prop :=
  ∃ y, s.whole.fine.cfg.conns c = some y ∧
    (y.status = .running ∨ (y.current = some dev.busId ∧ y.status ≠ .running ∧ y.status ≠ .closed))

/-- Something went wrong for the host that is client `c`: a response that it cannot have, its side of the connection was ended, or the
connection's task has panicked, was dropped, or could not write. -/
def Spoiled {τ : Type} {code : Code τ} {env : Env (HandlerId → τ)} {p : Profile} {s0 : Machine code} (e : MachineExec code env p s0)
    (c : Nat) (d : Nat → Driver) (log : Nat → List Handled) (m : Nat) : Prop :=
  (∃ e ∈ log m, ¬ Modest e.2.1) ∨ Overrun (log m) (d m).heard ∨ (e.state m).whole.ended c ≠ none ∨
    ∃ y, (e.state m).whole.fine.cfg.conns c = some y ∧ (y.status = .panicked ∨ e.Faulted c m y)

end Usbip.Spec
