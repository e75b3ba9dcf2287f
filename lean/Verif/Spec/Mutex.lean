import Verif.Model.Mutex
/-!
# Specification: handler code run without interruption
-/

namespace Usbip.Spec

open Usbip

/-- The step `commit g k` of a program runs no handler: it leaves the handlers' state alone and does
not depend on it. -/
def Passive {σ} (g : World σ → World σ) (k : World σ → Task σ) : Prop :=
  ∀ w, g w = w ∧ ∀ w', k w = k w'

/-- Handler code gets from one point to another. -/
inductive Goes {τ} (code : Code τ) : code.Local → τ → code.Local → τ → Prop
  | refl (l v) : Goes code l v l v
  | tail {l v l' v'} (h : Goes code l v l' v') (hr : code.result l' = none) :
      Goes code l v (code.step l' v').1 (code.step l' v').2

/-- `env` says what handler code does when it is run without interruption on its object (if
it ever returns). -/
def Behaves {τ} (code : Code τ) (env : Env (HandlerId → τ)) : Prop :=
  ∀ c u l v r, Goes code (code.start c) (u (code.obj c.target)) l v → code.result l = some r →
    c.answer env u = (r, upd u (code.obj c.target) v)

/-- ... and it always returns. -/
def Returns {τ} (code : Code τ) : Prop :=
  ∀ c v, ∃ l v', Goes code (code.start c) v l v' ∧ ∃ r, code.result l = some r

end Usbip.Spec
