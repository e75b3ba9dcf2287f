import Verif.Lemmas.Fair
/-! Helper lemmas: how many steps a program takes at most, asking for a lock and getting it being two. -/

namespace Usbip
open Spec

/-- The program ends after at most `n` steps. -/
def Task.Takes {σ} : Task σ → Nat → Prop
  | .done _, n => 1 ≤ n
  | .lock _ _ k, n => 2 ≤ n ∧ k.Takes (n - 2)
  | .unlock _ k, n => 1 ≤ n ∧ k.Takes (n - 1)
  | .getUsed k, n => 1 ≤ n ∧ ∀ v, (k v).Takes (n - 1)
  | .getAvail k, n => 1 ≤ n ∧ ∀ v, (k v).Takes (n - 1)
  | .putUsed _ k, n => 1 ≤ n ∧ k.Takes (n - 1)
  | .putAvail _ k, n => 1 ≤ n ∧ k.Takes (n - 1)
  | .commit _ k, n => 1 ≤ n ∧ ∀ w, (k w).Takes (n - 1)
  | .send k, n => 1 ≤ n ∧ k.Takes (n - 1)

theorem Task.Takes.pos {σ} {c : Task σ} {n : Nat} (h : c.Takes n) : 1 ≤ n := by
  cases c <;> simp only [Task.Takes] at h <;> omega

theorem iterTask_Takes {σ} (env : Env σ) (p : Profile) (x : Conn) (w : WriteRes) :
    (iterTask env p x w).Takes 16 := by
  unfold iterTask
  split <;>
    (try simp only [devlistTask, importTask, submitTask, unlinkTask, releaseTask]) <;>
    repeat' (first
      | trivial
      | refine ⟨?_, ?_⟩
      | decide
      | intro _
      | (split <;> simp only [Task.Takes])
      | simp only [Task.Takes])

theorem addTask_Takes {σ} (d : Device) : (addTask d : Task σ).Takes 7 := by
  simp [addTask, Task.Takes]

theorem removeTask_Takes {σ} (i : Bytes) : (removeTask i : Task σ).Takes 10 := by
  simp only [removeTask, Task.Takes]
  refine ⟨by decide, by decide, fun a => ?_⟩
  split <;> simp [Task.Takes]

/-- What is left of a program in flight; one that waits for a lock has asked for it already. -/
def Flight.Left {σ} (f : Flight σ) (b : Nat) : Prop :=
  f.code.Takes (if f.waiting then b + 1 else b)

/-- A step of a program leaves one step less. -/
theorem own_step_left {σ} {env : Env σ} {p : Profile} {s s' : Cfg σ} {lb : Label σ} (hQ : QInv s)
    (st : Cfg.Step env p s lb s') {t : Nat} {f : Flight σ} (hf : s.flights t = some f)
    (hp : prog lb = some t) {b : Nat} (hb : f.Left b) :
    0 < b ∧ ∀ g, s'.flights t = some g → g.Left (b - 1) := by
  have run : (∀ l m k, f.code ≠ .lock l m k) → f.waiting = false ∧ f.code.Takes b := fun hk => by
    have hw := hQ.not_waiting hf hk f hf
    unfold Flight.Left at hb
    rw [hw] at hb
    exact ⟨hw, hb⟩
  cases st <;> simp only [prog, Option.some.injEq, reduceCtorEq] at hp <;> subst hp
  case iterate ht hc hr hi => rw [hf] at ht; simp at ht
  case add ht => rw [hf] at ht; simp at ht
  case remove ht => rw [hf] at ht; simp at ht
  case finish ht hk =>
    rw [hf] at ht; cases ht
    obtain ⟨_, h⟩ := run (by rw [hk]; simp)
    exact ⟨h.pos, fun g hg => by simp [Cfg.put, upd] at hg⟩
  case abandon ht hc =>
    refine ⟨?_, fun g hg => by simp [Cfg.put, upd] at hg⟩
    cases hw : f.waiting with
    | false =>
      unfold Flight.Left at hb
      rw [hw] at hb
      exact Task.Takes.pos hb
    | true =>
      unfold Flight.Left at hb
      rw [hw] at hb
      cases hk : f.code with
      | lock l m k =>
        rw [hk] at hb
        have := hb.1
        simp at this
        omega
      | _ =>
        have := (run (by rw [hk]; simp)).1
        rw [hw] at this; simp at this
  case request ht hk hw =>
    rw [hf] at ht; cases ht
    unfold Flight.Left at hb
    rw [hw, hk] at hb
    have h2 : 2 ≤ b := hb.1
    refine ⟨by omega, fun g hg => ?_⟩
    simp only [Cfg.put, upd, if_true, Option.some.injEq] at hg
    subst hg
    show Task.Takes _ (b - 1 + 1)
    rw [hk, Nat.sub_add_cancel (by omega)]
    exact hb
  case grant ht hk hw hq hc =>
    rw [hf] at ht; cases ht
    unfold Flight.Left at hb
    rw [hw, hk] at hb
    have h2 : 2 ≤ b + 1 := hb.1
    refine ⟨by omega, fun g hg => ?_⟩
    simp only [Cfg.put, upd, if_true, Option.some.injEq] at hg
    subst hg
    exact hb.2
  all_goals
    rename_i ht hk
    rw [hf] at ht; cases ht
    obtain ⟨hw, h⟩ := run (by rw [hk]; simp)
    refine ⟨h.pos, fun g hg => ?_⟩
    simp only [Cfg.put, upd, if_true, Option.some.injEq] at hg
    subst hg
    rw [hk] at h
    unfold Flight.Left
    simp only [hw]
    first
      | exact h.2
      | exact h.2 _

/-- How many steps there are after the start at most. -/
def allowed {σ} : Event σ → Nat
  | .addDevice _ => 7
  | .removeDevice _ => 10
  | _ => 16

/-- A program that starts has at most that many steps to go. -/
theorem start_left {σ} {env : Env σ} {p : Profile} {s s' : Cfg σ} {lb : Label σ}
    (st : Cfg.Step env p s lb s') {t : Nat} {g : Flight σ} (hn : s.flights t = none)
    (hp : prog lb = some t) (hg : s'.flights t = some g) : ∃ ev, lb = .start t ev ∧ g.Left (allowed ev) := by
  cases st <;> simp only [prog, Option.some.injEq, reduceCtorEq] at hp <;> subst hp
  case iterate ht hc hr hi =>
    simp only [Cfg.put, upd, if_true, Option.some.injEq] at hg
    subst hg; exact ⟨_, rfl, iterTask_Takes _ _ _ _⟩
  case add ht =>
    simp only [Cfg.put, upd, if_true, Option.some.injEq] at hg
    subst hg; exact ⟨_, rfl, addTask_Takes _⟩
  case remove ht =>
    simp only [Cfg.put, upd, if_true, Option.some.injEq] at hg
    subst hg; exact ⟨_, rfl, removeTask_Takes _⟩
  all_goals
    first
      | (rename_i ht _; rw [hn] at ht; simp at ht; done)
      | (rename_i ht _ _; rw [hn] at ht; simp at ht; done)
      | (rename_i ht _ _ _ _; rw [hn] at ht; simp at ht; done)

end Usbip
