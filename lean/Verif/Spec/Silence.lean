import Verif.Spec.WholeLive
/-! The part of fairness that C106 needs. -/

namespace Usbip.Spec

/-- Tasks are run, what has arrived is taken from the sockets, and the loops of the connections go on.  The parts `tasks`,
`reads` and `loops` of `WholeExec.Fair`: nothing about the application, the mutexes and the clients. -/
structure WholeExec.Scheduled {τ} {code : Code τ} {env : Env (HandlerId → τ)} {p : Profile} {s0 : Whole code}
    (e : WholeExec code env p s0) : Prop where
  tasks : ∀ t n, ∃ m, n ≤ m ∧ (Acts t (e.state m) (e.label m) (e.state (m + 1)) ∨
    ¬ ∃ lb s', Whole.Step code env p (e.state m) lb s' ∧ Acts t (e.state m) lb s')
  reads : ∀ c n, ∃ m, n ≤ m ∧ ((e.label m = some (.take c) ∧ (e.state (m + 1)).buf c ≠ (e.state m).buf c) ∨
    ¬ ∃ s', Whole.Step code env p (e.state m) (some (.take c)) s' ∧ s'.buf c ≠ (e.state m).buf c)
  loops : ∀ c n, ∃ m, n ≤ m ∧ ((∃ t w, e.label m = some (.server (.start t (.iterate c w)))) ∨
    ¬ ∃ t w s', Whole.Step code env p (e.state m) (some (.server (.start t (.iterate c w)))) s')

/-- From time `n` on no task is dropped, and the server goes on running connection `c`. -/
def WholeExec.Undisturbed {τ} {code : Code τ} {env : Env (HandlerId → τ)} {p : Profile} {s0 : Whole code}
    (e : WholeExec code env p s0) (n c : Nat) : Prop :=
  ∀ m, n ≤ m → (∀ t o, e.label m ≠ some (.server (.dropped t o))) ∧ e.label m ≠ some (.server (.outside (.cancel c)))

end Usbip.Spec
