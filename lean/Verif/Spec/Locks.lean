import Verif.Model.Locks
/-! Specification vocabulary for concurrent executions. -/

namespace Usbip.Spec

open Usbip

/-- The program a step belongs to. -/
def prog {σ} : Label σ → Option Nat
  | .start t _ => some t
  | .effect t _ => some t
  | .inner t => some t
  | .ended t => some t
  | .dropped t _ => some t
  | .outside _ => none

/-- Where a program is in its life. -/
inductive Phase (σ : Type) where
  | idle
  | begun (ev : Event σ)
  | effected

/-- The life of program number `t` in a history: it starts as an execution of some event; then
either the effect of that same event takes place, exactly once, and it ends; or it is dropped
without effect.  Afterwards the number can be used again. -/
inductive Life {σ} (t : Nat) : List (Label σ) → Phase σ → Prop
  | nil : Life t [] .idle
  | start {ls} (ev) (h : Life t ls .idle) : Life t (ls ++ [.start t ev]) (.begun ev)
  | effect {ls ev} (h : Life t ls (.begun ev)) : Life t (ls ++ [.effect t ev]) .effected
  | ended {ls} (h : Life t ls .effected) : Life t (ls ++ [.ended t]) .idle
  | dropped {ls ev} (o) (h : Life t ls (.begun ev)) : Life t (ls ++ [.dropped t o]) .idle
  | begunInner {ls ev} (h : Life t ls (.begun ev)) : Life t (ls ++ [.inner t]) (.begun ev)
  | effectedInner {ls} (h : Life t ls .effected) : Life t (ls ++ [.inner t]) .effected
  | other {ls lb ph} (h : Life t ls ph) (hl : prog lb ≠ some t) : Life t (ls ++ [lb]) ph

/-- A step by which an operation that has been started gets further. -/
def Advances {σ} : Label σ → Prop
  | .effect _ _ => True
  | .inner _ => True
  | .ended _ => True
  | _ => False

/-- Executions from `s`, with the labels of the steps and the programs that get lock `l`, in the order
in which they get it. -/
inductive Gets {σ} (env : Env σ) (p : Profile) (l : Lk) (s : Cfg σ) :
    List (Label σ) → List Nat → Cfg σ → Prop
  | refl : Gets env p l s [] [] s
  | got {ls us s1 lb s2 u f g} (h : Gets env p l s ls us s1) (st : Cfg.Step env p s1 lb s2)
      (hf : s1.flights u = some f) (hn : f.held l = none)
      (hg : s2.flights u = some g) (hh : g.held l ≠ none) : Gets env p l s (ls ++ [lb]) (us ++ [u]) s2
  | nobody {ls us s1 lb s2} (h : Gets env p l s ls us s1) (st : Cfg.Step env p s1 lb s2)
      (hno : ∀ u f g, s1.flights u = some f → f.held l = none → s2.flights u = some g → g.held l = none) :
      Gets env p l s (ls ++ [lb]) us s2

/-- Program `t` has asked for lock `l` and does not have it yet. -/
def Waits {σ} (s : Cfg σ) (t : Nat) (l : Lk) : Prop :=
  ∃ f m k, s.flights t = some f ∧ f.waiting = true ∧ f.code = .lock l m k

/-- The steps of program `t` in a history. -/
def stepsOf {σ} (t : Nat) (ls : List (Label σ)) : Nat := ls.countP (fun lb => prog lb == some t)

/-- How often a program with number `t` is started in a history. -/
def startsOf {σ} (t : Nat) (ls : List (Label σ)) : Nat :=
  ls.countP (fun lb => match lb with | .start u _ => u == t | _ => false)

/-- An execution that goes on for ever. -/
structure Exec {σ} (env : Env σ) (p : Profile) (s0 : Cfg σ) where
  state : Nat → Cfg σ
  label : Nat → Label σ
  init : state 0 = s0
  step : ∀ n, Cfg.Step env p (state n) (label n) (state (n + 1))

/-- Program `t` can get further. -/
def CanMove {σ} (env : Env σ) (p : Profile) (s : Cfg σ) (t : Nat) : Prop :=
  ∃ lb s', Cfg.Step env p s lb s' ∧ Advances lb ∧ prog lb = some t

/-- A fair execution: no program can get further from some point on without ever doing so.  (Tasks
are scheduled, handlers return, clients read their replies.) -/
def Exec.Fair {σ} {env : Env σ} {p : Profile} {s0 : Cfg σ} (e : Exec env p s0) : Prop :=
  ∀ t n, ∃ m, n ≤ m ∧ (prog (e.label m) = some t ∨ ¬ CanMove env p (e.state m) t)

/-- An execution that is fair except that the clients in `F` may stop reading: a program that is about
to send a reply to one of them need not get further. -/
def Exec.FairBut {σ} {env : Env σ} {p : Profile} {s0 : Cfg σ} (e : Exec env p s0) (F : Nat → Prop) : Prop :=
  ∀ t n, ∃ m, n ≤ m ∧ (prog (e.label m) = some t ∨ ¬ CanMove env p (e.state m) t ∨
    ∃ f c k, (e.state m).flights t = some f ∧ f.owner = some c ∧ F c ∧ f.code = .send k)

/-- What connection `x` does next changes the tables: it imports a device, or it is over and gives
its device back. -/
def Writes (p : Profile) (x : Conn) : Prop :=
  (∃ st b rest, readCommand p x.input = .ok (.reqImport st b, rest)) ∨
  (x.current ≠ none ∧ ∃ e, readCommand p x.input = .err e)

/-- The next command on connection `x` is a submit or an unlink. -/
def Transfers (p : Profile) (x : Conn) : Prop :=
  (∃ h f len sf np iv setup data iso rest,
    readCommand p x.input = .ok (.submit h f len sf np iv setup data iso, rest)) ∨
  (∃ h n rest, readCommand p x.input = .ok (.unlink h n, rest))

end Usbip.Spec
