import Verif.Spec.Contest
import Verif.Spec.Machine
/-!
# Specification: hosts that come one after the other (C99)
-/

namespace Usbip.Spec
open Usbip

/-- The connection of client `c` has come to its end, and has no device any more. -/
def GaveBack {τ : Type} {code : Code τ} (s : Machine code) (c : Nat) : Prop :=
  ∃ y, s.whole.fine.cfg.conns c = some y ∧ y.current = none ∧ (y.status = .closed ∨ ∃ er, y.status = .failed er)

/-- The clients in `H` are served one after the other: when two of them have been accepted, the connection of one of the two has come to its
end.  In which order they come, and how long they wait to be accepted, is open. -/
def OneByOne {τ : Type} {code : Code τ} {env : Env (HandlerId → τ)} {p : Profile} {s0 : Machine code}
    (e : MachineExec code env p s0) (H : Nat → Prop) : Prop :=
  ∀ n c1 c2, H c1 → H c2 → c1 ≠ c2 → (e.state n).front c1 = .accepted → (e.state n).front c2 = .accepted →
    GaveBack (e.state n) c1 ∨ GaveBack (e.state n) c2

end Usbip.Spec
