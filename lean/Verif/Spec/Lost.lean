import Verif.Spec.Again
/-!
# Specification: a device that was not given back (C101)
-/

namespace Usbip.Spec
open Usbip

/-- The connection of client `c` is over, and it did not give back the device that it had. -/
def TookAlong {τ : Type} {code : Code τ} (s : Machine code) (c : Nat) (dev : Device) : Prop :=
  ∃ y, s.whole.fine.cfg.conns c = some y ∧ y.status ≠ .running ∧ y.current = some dev.busId

/-- The only answer to the client was that it cannot have the device. -/
def Denied (log : List Handled) : Prop := ∃ g l, log = g :: l ∧ g.2.1 = .repImport 1 none

end Usbip.Spec
