import Verif.Model.Locks
/-! Helper lemmas about the lock-level model: every interleaving can be rearranged. -/

namespace Usbip

/-- Run a program without interruption. -/
def Task.exec {σ} : Task σ → Shared σ → Shared σ × Ended
  | .done x, s => (s, x)
  | .lock _ _ k, s => k.exec s
  | .unlock _ k, s => k.exec s
  | .getUsed k, s => (k s.used).exec s
  | .getAvail k, s => (k s.available).exec s
  | .putUsed v k, s => k.exec { s with used := v }
  | .putAvail v k, s => k.exec { s with available := v }
  | .commit f k, s => (k s.world).exec { s with world := f s.world }
  | .send k, s => k.exec s

/-- Lock discipline: `held` are the guards held, `c` whether committed, `d` whether a table has
been read. -/
def Task.WL {σ} : Task σ → (held : Lk → Option Mode) → (c d : Bool) → Prop
  | .done _, held, c, _ => c = true ∧ ∀ l, held l = none
  | .lock l m k, held, c, d => c = false ∧ held l = none ∧ k.WL (upd held l (some m)) c d
  | .unlock l k, held, c, d => (c = true ∨ d = false) ∧ held l ≠ none ∧ k.WL (upd held l none) c d
  | .getUsed k, held, c, _ => held .used ≠ none ∧ ∀ v, (k v).WL held c true
  | .getAvail k, held, c, _ => held .avail ≠ none ∧ ∀ v, (k v).WL held c true
  | .putUsed _ k, held, c, d => c = true ∧ held .used = some .w ∧ k.WL held c d
  | .putAvail _ k, held, c, d => c = true ∧ held .avail = some .w ∧ k.WL held c d
  | .commit _ k, held, c, d => c = false ∧ ∀ w, (k w).WL held true d
  | .send k, held, c, d => c = true ∧ k.WL held c d

/-- The table behind lock `l` is the same. -/
def Same {σ} (l : Lk) (s s' : Shared σ) : Prop :=
  match l with
  | .used => s.used = s'.used
  | .avail => s.available = s'.available

theorem Same.refl {σ} (l : Lk) (s : Shared σ) : Same l s s := by cases l <;> rfl
theorem Same.symm {σ} {l : Lk} {s s' : Shared σ} (h : Same l s s') : Same l s' s := by
  cases l <;> exact Eq.symm h
theorem Same.trans {σ} {l : Lk} {s s' s'' : Shared σ} (h : Same l s s') (h' : Same l s' s'') :
    Same l s s'' := by cases l <;> exact Eq.trans h h'

theorem upd_self {α β} [DecidableEq α] (f : α → β) (a : α) (b : β) : upd f a b a = b := if_pos rfl
theorem upd_ne {α β} [DecidableEq α] (f : α → β) {a x : α} (b : β) (h : x ≠ a) : upd f a b x = f x :=
  if_neg h

theorem upd_none_ne {held : Lk → Option Mode} {l l' : Lk} (h : upd held l none l' ≠ none) :
    held l' ≠ none := by
  by_cases e : l' = l
  · rw [e, upd_self] at h; exact absurd rfl h
  · rwa [upd_ne _ _ e] at h

theorem exec_world {σ} (t : Task σ) : ∀ (held : Lk → Option Mode) (d : Bool) (s : Shared σ),
    t.WL held true d → (t.exec s).1.world = s.world := by
  induction t with
  | done x => intros; rfl
  | lock l m k ih => intro _ _ _ h; exact absurd h.1 (by simp)
  | unlock l k ih => intro _ _ s h; exact ih _ _ s h.2.2
  | getUsed k ih => intro _ _ s h; exact ih _ _ _ s (h.2 _)
  | getAvail k ih => intro _ _ s h; exact ih _ _ _ s (h.2 _)
  | putUsed v k ih => intro _ _ s h; exact ih _ _ { s with used := v } h.2.2
  | putAvail v k ih => intro _ _ s h; exact ih _ _ { s with available := v } h.2.2
  | commit f k ih => intro _ _ _ h; exact absurd h.1 (by simp)
  | send k ih => intro _ _ s h; exact ih _ _ s h.2

/-- Committed code leaves alone what it does not hold exclusively. -/
theorem exec_frame {σ} (t : Task σ) : ∀ (held : Lk → Option Mode) (d : Bool) (s : Shared σ) (l : Lk),
    t.WL held true d → held l ≠ some .w → Same l (t.exec s).1 s := by
  induction t with
  | done x => intro _ _ s l _ _; exact Same.refl l s
  | lock l m k ih => intro _ _ _ _ h; exact absurd h.1 (by simp)
  | unlock l' k ih =>
    intro held _ s l h hl
    refine ih _ _ s l h.2.2 ?_
    by_cases e : l = l'
    · rw [e, upd_self]; simp
    · rwa [upd_ne _ _ e]
  | getUsed k ih => intro _ _ s l h hl; exact ih _ _ _ s l (h.2 _) hl
  | getAvail k ih => intro _ _ s l h hl; exact ih _ _ _ s l (h.2 _) hl
  | putUsed v k ih =>
    intro held _ s l h hl
    refine (ih _ _ { s with used := v } l h.2.2 hl).trans ?_
    cases l with
    | used => exact absurd h.2.1 hl
    | avail => rfl
  | putAvail v k ih =>
    intro held _ s l h hl
    refine (ih _ _ { s with available := v } l h.2.2 hl).trans ?_
    cases l with
    | avail => exact absurd h.2.1 hl
    | used => rfl
  | commit f k ih => intro _ _ _ _ h; exact absurd h.1 (by simp)
  | send k ih => intro _ _ s l h hl; exact ih _ _ s l h.2 hl

/-- Committed code depends only on what it holds. -/
theorem exec_depends {σ} (t : Task σ) : ∀ (held : Lk → Option Mode) (d : Bool) (s s' : Shared σ),
    t.WL held true d → (∀ l, held l ≠ none → Same l s s') →
    (t.exec s).2 = (t.exec s').2 ∧ ∀ l, held l ≠ none → Same l (t.exec s).1 (t.exec s').1 := by
  induction t with
  | done x => intro _ _ s s' _ h; exact ⟨rfl, h⟩
  | lock l m k ih => intro _ _ _ _ h; exact absurd h.1 (by simp)
  | unlock l' k ih =>
    intro held d s s' h hs
    obtain ⟨h1, h2⟩ := ih (upd held l' none) d s s' h.2.2 (fun l hl => hs l (upd_none_ne hl))
    refine ⟨h1, fun l hl => ?_⟩
    by_cases e : l = l'
    · have hn : upd held l' none l ≠ some .w := by rw [e, upd_self]; simp
      exact ((exec_frame k _ _ s l h.2.2 hn).trans (hs l hl)).trans
        (exec_frame k _ _ s' l h.2.2 hn).symm
    · exact h2 l (by rwa [upd_ne _ _ e])
  | getUsed k ih =>
    intro held d s s' h hs
    have e : s.used = s'.used := hs .used h.1
    simp only [Task.exec, e]
    exact ih _ _ _ s s' (h.2 _) hs
  | getAvail k ih =>
    intro held d s s' h hs
    have e : s.available = s'.available := hs .avail h.1
    simp only [Task.exec, e]
    exact ih _ _ _ s s' (h.2 _) hs
  | putUsed v k ih =>
    intro held d s s' h hs
    refine ih held d { s with used := v } { s' with used := v } h.2.2 (fun l hl => ?_)
    cases l with
    | used => rfl
    | avail => exact hs .avail hl
  | putAvail v k ih =>
    intro held d s s' h hs
    refine ih held d { s with available := v } { s' with available := v } h.2.2 (fun l hl => ?_)
    cases l with
    | avail => rfl
    | used => exact hs .used hl
  | commit f k ih => intro _ _ _ _ h; exact absurd h.1 (by simp)
  | send k ih => intro held d s s' h hs; exact ih held d s s' h.2 hs

/-! ### The programs -/

theorem iterate_finish {σ} (env : Env σ) (p : Profile) (s : Shared σ) (x : Conn) (w : WriteRes)
    (cmd : Cmd) (rest : Stream) (h : readCommand p x.input = .ok (cmd, rest)) :
    x.iterate env p s w = ((s.serve env p x.current cmd).2.1,
      x.finish p rest cmd w (s.serve env p x.current cmd).2.2 (s.serve env p x.current cmd).1) := by
  unfold Conn.iterate
  rw [h]
  dsimp only
  rcases hs : s.serve env p x.current cmd with ⟨r, s', cur⟩
  cases r with
  | ok resp =>
    simp only [Conn.finish]
    cases resp.toBytes p with
    | ok b => cases w <;> rfl
    | err e => rfl
    | panic => rfl
    | diverge => rfl
  | err e => rfl
  | panic => rfl
  | diverge => rfl

theorem submit_world {σ} (env : Env σ) (p : Profile) (s : Shared σ) (d : Device) (h : Header)
    (len : UInt32) (setup data : Bytes) :
    s.submit env p d h len setup data =
      ((Shared.submit env p ⟨[], [], s.world⟩ d h len setup data).1,
       { s with world := (Shared.submit env p ⟨[], [], s.world⟩ d h len setup data).2.world }) := by
  unfold Shared.submit
  dsimp only
  split
  · rfl
  · split <;> rfl

theorem iterTask_exec {σ} (env : Env σ) (p : Profile) (x : Conn) (w : WriteRes) (s : Shared σ) :
    (iterTask env p x w).exec s = ((x.iterate env p s w).1, .conn (x.iterate env p s w).2) := by
  cases hr : readCommand p x.input with
  | ok r =>
    obtain ⟨cmd, rest⟩ := r
    rw [iterate_finish env p s x w cmd rest hr]
    unfold iterTask
    rw [hr]
    cases cmd with
    | reqDevlist st => rfl
    | reqImport st b =>
      simp only [importTask, Task.exec, Shared.serve, Shared.import, id]
      cases ht : takeFirst (busidCompare b) s.available with
      | none => rfl
      | some y => rfl
    | submit h a len sf np iv setup data iso =>
      simp only [submitTask, Task.exec, Shared.serve]
      cases hd : x.current.bind (fun id => amGet id s.used) with
      | none => rfl
      | some d =>
        simp only [Task.exec]
        rw [submit_world env p s d]
    | unlink h n => rfl
  | err e =>
    unfold iterTask Conn.iterate
    rw [hr]
    simp only [releaseTask, Shared.release]
    cases x.current with
    | none => rfl
    | some id' =>
      simp only [Task.exec, id]
      cases amGet id' s.used <;> rfl
  | panic => unfold iterTask Conn.iterate; rw [hr]; rfl
  | diverge => unfold iterTask Conn.iterate; rw [hr]; rfl

theorem addTask_exec {σ} (d : Device) (s : Shared σ) : (addTask d).exec s = (s.addDevice d, .call (.ok ())) := rfl

theorem removeTask_exec {σ} (i : Bytes) (s : Shared σ) :
    (removeTask i).exec s = ((s.removeDevice i).2, .call (s.removeDevice i).1) := by
  simp only [removeTask, Task.exec, Shared.removeDevice]
  cases takeFirst i s.available with
  | some y => rfl
  | none => simp only [Task.exec, id]; split <;> rfl

theorem upd_clear (m1 m2 : Option Mode) (h0 : Lk → Option Mode) (l : Lk) :
    upd (upd (upd (upd h0 .used m1) .avail m2) .avail none) .used none l = none := by
  cases l <;> rfl

theorem iterTask_WL {σ} (env : Env σ) (p : Profile) (x : Conn) (w : WriteRes) :
    (iterTask env p x w).WL (fun _ => none) false false := by
  unfold iterTask
  split <;>
    (try simp only [devlistTask, importTask, submitTask, unlinkTask, releaseTask]) <;>
    repeat' (first
      | rfl
      | (intro l; cases l <;> rfl)
      | refine ⟨?_, ?_⟩
      | (simp [upd]; done)
      | intro _
      | (split <;> simp only [Task.WL, true_and, and_true, or_true, true_or])
      | simp only [Task.WL, true_and, and_true, or_true, true_or])

theorem addTask_WL {σ} (d : Device) : (addTask d : Task σ).WL (fun _ => none) false false := by
  simp only [addTask]
  repeat' (first
      | rfl
      | (intro l; cases l <;> rfl)
      | refine ⟨?_, ?_⟩
      | (simp [upd]; done)
      | intro _
      | (split <;> simp only [Task.WL, true_and, and_true, or_true, true_or])
      | simp only [Task.WL, true_and, and_true, or_true, true_or])

theorem removeTask_WL {σ} (i : Bytes) : (removeTask i : Task σ).WL (fun _ => none) false false := by
  simp only [removeTask]
  repeat' (first
      | rfl
      | (intro l; cases l <;> rfl)
      | refine ⟨?_, ?_⟩
      | (simp [upd]; done)
      | intro _
      | (split <;> simp only [Task.WL, true_and, and_true, or_true, true_or])
      | simp only [Task.WL, true_and, and_true, or_true, true_or])

end Usbip
