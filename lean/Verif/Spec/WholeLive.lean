import Verif.Model.Whole
import Verif.Spec.Live
import Verif.Spec.Mutex
/-!
# Specification: infinite executions with handler code that runs step by step
-/

namespace Usbip.Spec
open Usbip

/-- A step, or nothing happens: the process may also come to rest. -/
def Whole.Moves {τ} (code : Code τ) (env : Env (HandlerId → τ)) (p : Profile) (s : Whole code)
    (lb : Option (TcpLabel (HandlerId → τ))) (s' : Whole code) : Prop :=
  Whole.Step code env p s lb s' ∨ (lb = none ∧ s' = s)

/-- An infinite execution: states, and the labels of the steps between them (`none` for steps of handler
code and of the application with handler objects, and when nothing happens). -/
structure WholeExec {τ} (code : Code τ) (env : Env (HandlerId → τ)) (p : Profile) (s0 : Whole code) where
  state : Nat → Whole code
  label : Nat → Option (TcpLabel (HandlerId → τ))
  init : state 0 = s0
  step : ∀ n, Whole.Moves code env p (state n) (label n) (state (n + 1))

/-- The step gets program `t` further: a step of its own, the handler's mutex taken, or a step of handler code. -/
def Acts {τ} {code : Code τ} (t : Nat) (s : Whole code) (lb : Option (TcpLabel (HandlerId → τ))) (s' : Whole code) : Prop :=
  (∃ l, lb = some (.server l) ∧ Advances l ∧ prog l = some t) ∨
  (s.fine.inside t = none ∧ s'.fine.inside t ≠ none) ∨
  ∃ i, s.fine.inside t = some i ∧ code.result i.loc = none ∧
    s'.fine.inside t = some { i with loc := (code.step i.loc (s.fine.cfg.shared.world.user (code.obj i.call.target))).1 } ∧
    s'.fine.cfg.shared.world.user (code.obj i.call.target) = (code.step i.loc (s.fine.cfg.shared.world.user (code.obj i.call.target))).2

/-- A fair execution.

`tasks`: a program that can get further at all times from some point on gets further (tasks are scheduled, locks
that are free are given to the first who waits, handler code is run).  `mutexes`: a program that is at its handler
call, and finds the handler's mutex free again and again, gets it at some time (the mutexes of the standard library
have no queue).  `apps`: no thread of the application keeps a handler's mutex for ever.  `reads`, `loops`,
`clients`: as in `TcpExec.FairFor`. -/
structure WholeExec.Fair {τ} {code : Code τ} {env : Env (HandlerId → τ)} {p : Profile} {s0 : Whole code}
    (e : WholeExec code env p s0) : Prop where
  tasks : ∀ t n, ∃ m, n ≤ m ∧ (Acts t (e.state m) (e.label m) (e.state (m + 1)) ∨
    ¬ ∃ lb s', Whole.Step code env p (e.state m) lb s' ∧ Acts t (e.state m) lb s')
  mutexes : ∀ t n, (∀ m, n ≤ m → (e.state m).fine.inside t = none ∧
      ∃ f g k, (e.state m).fine.cfg.flights t = some f ∧ f.code = .commit g k) →
    (∀ m, n ≤ m → ∃ m', m ≤ m' ∧ ∃ lb s', Whole.Step code env p (e.state m') lb s' ∧ Acts t (e.state m') lb s') →
    ∃ m, n ≤ m ∧ Acts t (e.state m) (e.label m) (e.state (m + 1))
  apps : ∀ a n, ∃ m, n ≤ m ∧ (e.state m).fine.app a = none
  reads : ∀ c n, ∃ m, n ≤ m ∧ ((e.label m = some (.take c) ∧ (e.state (m + 1)).buf c ≠ (e.state m).buf c) ∨
    ¬ ∃ s', Whole.Step code env p (e.state m) (some (.take c)) s' ∧ s'.buf c ≠ (e.state m).buf c)
  loops : ∀ c n, ∃ m, n ≤ m ∧ ((∃ t w, e.label m = some (.server (.start t (.iterate c w)))) ∨
    ¬ ∃ t w s', Whole.Step code env p (e.state m) (some (.server (.start t (.iterate c w)))) s')
  clients : ∀ c n, ∃ m, n ≤ m ∧ ((∃ b bs, e.label m = some (.piece c (b :: bs))) ∨
    ¬ ∃ b s', Whole.Step code env p (e.state m) (some (.piece c [b])) s')

/-- Before time `m` something went wrong on connection `c` outside of the server, which has ended it. -/
def WholeExec.Faulted {τ} {code : Code τ} {env : Env (HandlerId → τ)} {p : Profile} {s0 : Whole code}
    (e : WholeExec code env p s0) (c m : Nat) (y : Conn) : Prop :=
  y.status ≠ .running ∧ ∃ k lb, k < m ∧ e.label k = some lb ∧ Fault c lb

end Usbip.Spec
