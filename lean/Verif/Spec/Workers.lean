import Verif.Spec.Machine
/-!
# Specification: a runtime with a number of worker threads (C105)

A runtime runs tasks on its worker threads.  A thread goes on with a task until the task waits at an `await`; in code
without `await` (a handler's mutex is taken with `lock()` of the standard library, which blocks the thread, and handler code
is no `async` code) it cannot be taken away.
-/

namespace Usbip.Spec
open Usbip

/-- The tasks of a process: of a connection, of a call of `add_device` or `remove_device` (program `t`), of a call of `server`. -/
inductive Duty where
  | conn (c : Nat)
  | call (t : Nat)
  | serve (k : Nat)
  deriving DecidableEq, Repr

/-- What tasks do: they get further with the program for a command or a call, take what has arrived at a socket,
begin with a command, or call `accept`. -/
inductive Move where
  | prog (t : Nat)
  | read (c : Nat)
  | loop (c : Nat)
  | accept (k : Nat)
  deriving DecidableEq, Repr

/-- The task a program is part of. -/
def dutyOf {σ} (t : Nat) (f : Flight σ) : Duty :=
  match f.owner with
  | some c => .conn c
  | none => .call t

/-- It is task `j` that makes the move. -/
def Move.Of {τ} {code : Code τ} (M : Move) (j : Duty) (s : Machine code) : Prop :=
  match M with
  | .prog t => ∃ f, s.whole.fine.cfg.flights t = some f ∧ j = dutyOf t f
  | .read c => j = .conn c
  | .loop c => j = .conn c
  | .accept k => j = .serve k

/-- The step is the move. -/
def Move.Made {τ} {code : Code τ} (M : Move) (s : Machine code) (lb : Option (MachineLabel (HandlerId → τ))) (s' : Machine code) : Prop :=
  match M with
  | .prog t => Acts t s.whole (inServer lb) s'.whole
  | .read c => lb = some (.inner (.take c)) ∧ s'.whole.buf c ≠ s.whole.buf c
  | .loop c => ∃ t w, lb = some (.inner (.server (.start t (.iterate c w))))
  | .accept k => (∃ c bs fin, lb = some (.accept k c bs fin)) ∨ lb = some (.acceptErr k)

/-- The move is possible. -/
def Move.Can {τ} (code : Code τ) (env : Env (HandlerId → τ)) (p : Profile) (M : Move) (s : Machine code) : Prop :=
  match M with
  | .prog t => ∃ lb s', Whole.Step code env p s.whole lb s' ∧ Acts t s.whole lb s'
  | .read c => ∃ s', Whole.Step code env p s.whole (some (.take c)) s' ∧ s'.buf c ≠ s.whole.buf c
  | .loop c => ∃ t w s', Whole.Step code env p s.whole (some (.server (.start t (.iterate c w)))) s'
  | .accept k => ∃ c q, s.calls k = some (.listening (c :: q))

/-- The task is in code without `await`: it has the locks it needs and is about to call a handler (if there is one to
call), waits for the handler's mutex, or is inside handler code. -/
def Synchronous {τ} {code : Code τ} (j : Duty) (s : Machine code) : Prop :=
  ∃ t f g k, s.whole.fine.cfg.flights t = some f ∧ j = dutyOf t f ∧ f.code = .commit g k

/-- The execution is one on a runtime with `W` worker threads; `on n w` is the task that thread `w` has at time `n`.

`threads`: there are no others.  `only`: tasks do something only on a thread.  `blocked`: a thread does not leave a task in
code without `await`.  `runs`: a task that can do something all the time, and has a thread again and again, does it some
time.  `mutexes`: a thread that waits for a handler's mutex, which is free again and again, gets it some time.
`letsGo`: nothing but code without `await` can keep a thread for ever (a task that waits at an `await` is put aside, and so
is one that could go on for ever).  `turn`: a task that could go on gets a thread some time, if again and again there is
a thread that has no task or takes another one. -/
structure Pool {τ : Type} {code : Code τ} {env : Env (HandlerId → τ)} {p : Profile} {s0 : Machine code}
    (e : MachineExec code env p s0) (W : Nat) (on : Nat → Nat → Option Duty) : Prop where
  threads : ∀ n w, W ≤ w → on n w = none
  only : ∀ n (M : Move), M.Made (e.state n) (e.label n) (e.state (n + 1)) → ∃ j w, M.Of j (e.state n) ∧ on n w = some j
  blocked : ∀ n w j, on n w = some j → Synchronous j (e.state n) → Synchronous j (e.state (n + 1)) → on (n + 1) w = some j
  runs : ∀ n j (M : Move), (∀ m, n ≤ m → M.Of j (e.state m) ∧ M.Can code env p (e.state m)) →
    (∀ m, n ≤ m → ∃ m' w, m ≤ m' ∧ on m' w = some j) →
    ∃ m, n ≤ m ∧ M.Made (e.state m) (e.label m) (e.state (m + 1))
  mutexes : ∀ n w j t, (∀ m, n ≤ m → on m w = some j ∧ (Move.prog t).Of j (e.state m) ∧
      (e.state m).whole.fine.inside t = none ∧ ∃ f g k, (e.state m).whole.fine.cfg.flights t = some f ∧ f.code = .commit g k) →
    (∀ m, n ≤ m → ∃ m', m ≤ m' ∧ (Move.prog t).Can code env p (e.state m')) →
    ∃ m, n ≤ m ∧ (Move.prog t).Made (e.state m) (e.label m) (e.state (m + 1))
  letsGo : ∀ n w j, (∀ m, n ≤ m → on m w = some j) → ∃ m, n ≤ m ∧ ∀ m', m ≤ m' → Synchronous j (e.state m')
  turn : ∀ n j, (∀ m, n ≤ m → Synchronous j (e.state m) ∨ ∃ M : Move, M.Of j (e.state m) ∧ M.Can code env p (e.state m)) →
    (∀ m, n ≤ m → ∃ m' w, m ≤ m' ∧ w < W ∧ (on m' w = none ∨ on (m' + 1) w ≠ on m' w)) →
    ∃ m w, n ≤ m ∧ on m w = some j

/-- The rest of the world plays its part: no thread of the application keeps a handler's mutex for ever; clients go on
receiving; `accept` does not fail for ever. -/
structure Outside {τ : Type} {code : Code τ} {env : Env (HandlerId → τ)} {p : Profile} {s0 : Machine code}
    (e : MachineExec code env p s0) : Prop where
  apps : ∀ a n, ∃ m, n ≤ m ∧ (e.state m).whole.fine.app a = none
  clients : ∀ c n, ∃ m, n ≤ m ∧ ((∃ b bs, e.label m = some (.inner (.piece c (b :: bs)))) ∨
    ¬ ∃ b s', Whole.Step code env p (e.state m).whole (some (.piece c [b])) s')
  errors : ∀ k n, ∃ m, n ≤ m ∧ ((∃ c bs fin, e.label m = some (.accept k c bs fin)) ∨
    ∀ m', m ≤ m' → e.label m' ≠ some (.acceptErr k))

end Usbip.Spec
