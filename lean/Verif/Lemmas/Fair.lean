import Verif.Lemmas.Progress
/-! Helper lemmas: every program is short; queues are first in, first out; fair executions. -/

namespace Usbip
open Spec

/-- The program ends after at most `n` steps, not counting requests for locks. -/
def Task.Fits {σ} : Task σ → Nat → Prop
  | .done _, _ => True
  | .lock _ _ k, n => 0 < n ∧ k.Fits (n - 1)
  | .unlock _ k, n => 0 < n ∧ k.Fits (n - 1)
  | .getUsed k, n => 0 < n ∧ ∀ v, (k v).Fits (n - 1)
  | .getAvail k, n => 0 < n ∧ ∀ v, (k v).Fits (n - 1)
  | .putUsed _ k, n => 0 < n ∧ k.Fits (n - 1)
  | .putAvail _ k, n => 0 < n ∧ k.Fits (n - 1)
  | .commit _ k, n => 0 < n ∧ ∀ w, (k w).Fits (n - 1)
  | .send k, n => 0 < n ∧ k.Fits (n - 1)

theorem iterTask_Fits {σ} (env : Env σ) (p : Profile) (x : Conn) (w : WriteRes) :
    (iterTask env p x w).Fits 12 := by
  unfold iterTask
  split <;>
    (try simp only [devlistTask, importTask, submitTask, unlinkTask, releaseTask]) <;>
    repeat' (first
      | trivial
      | refine ⟨?_, ?_⟩
      | decide
      | intro _
      | (split <;> simp only [Task.Fits])
      | simp only [Task.Fits])

theorem addTask_Fits {σ} (d : Device) : (addTask d : Task σ).Fits 12 := by
  simp [addTask, Task.Fits]

theorem removeTask_Fits {σ} (i : Bytes) : (removeTask i : Task σ).Fits 12 := by
  simp only [removeTask, Task.Fits]
  refine ⟨by decide, by decide, fun a => ?_⟩
  split <;> simp [Task.Fits]

/-- The step of a program, as far as it is concerned. -/
theorem own_step {σ} {env : Env σ} {p : Profile} {s s' : Cfg σ} {lb : Label σ} (hQ : QInv s)
    (st : Cfg.Step env p s lb s') {t : Nat} {f : Flight σ} (hf : s.flights t = some f)
    (hp : prog lb = some t) :
    (s'.flights t = none ∧ (lb = .ended t ∨ ∃ o, lb = .dropped t o)) ∨
    (lb ≠ .ended t ∧ ∃ g, s'.flights t = some g ∧
      ((f.waiting = false ∧ g.waiting = true ∧ g.code = f.code ∧ g.held = f.held) ∨
        (g.waiting = false ∧ ∀ n, f.code.Fits n → 0 < n ∧ g.code.Fits (n - 1)))) := by
  cases st <;> simp only [prog, Option.some.injEq, reduceCtorEq] at hp <;> subst hp
  case iterate ht hc hr hi => rw [hf] at ht; simp at ht
  case add ht => rw [hf] at ht; simp at ht
  case remove ht => rw [hf] at ht; simp at ht
  case finish => exact Or.inl ⟨upd_self _ _ _, Or.inl rfl⟩
  case abandon => exact Or.inl ⟨upd_self _ _ _, Or.inr ⟨_, rfl⟩⟩
  case request ht hk hw =>
    rw [hf] at ht; cases ht
    exact Or.inr ⟨by simp, _, upd_self _ _ _, Or.inl ⟨hw, rfl, rfl, rfl⟩⟩
  case grant ht hk hw hq hc =>
    rw [hf] at ht; cases ht
    exact Or.inr ⟨by simp, _, upd_self _ _ _, Or.inr ⟨rfl, fun n hn => by rw [hk] at hn; exact hn⟩⟩
  case unlock ht hk =>
    rw [hf] at ht; cases ht
    have hw := hQ.not_waiting hf (by rw [hk]; simp) f hf
    exact Or.inr ⟨by simp, _, upd_self _ _ _, Or.inr ⟨hw, fun n hn => by rw [hk] at hn; exact hn⟩⟩
  case getUsed ht hk =>
    rw [hf] at ht; cases ht
    have hw := hQ.not_waiting hf (by rw [hk]; simp) f hf
    exact Or.inr ⟨by simp, _, upd_self _ _ _, Or.inr ⟨hw, fun n hn => by rw [hk] at hn; exact ⟨hn.1, hn.2 _⟩⟩⟩
  case getAvail ht hk =>
    rw [hf] at ht; cases ht
    have hw := hQ.not_waiting hf (by rw [hk]; simp) f hf
    exact Or.inr ⟨by simp, _, upd_self _ _ _, Or.inr ⟨hw, fun n hn => by rw [hk] at hn; exact ⟨hn.1, hn.2 _⟩⟩⟩
  case putUsed ht hk =>
    rw [hf] at ht; cases ht
    have hw := hQ.not_waiting hf (by rw [hk]; simp) f hf
    exact Or.inr ⟨by simp, _, upd_self _ _ _, Or.inr ⟨hw, fun n hn => by rw [hk] at hn; exact hn⟩⟩
  case putAvail ht hk =>
    rw [hf] at ht; cases ht
    have hw := hQ.not_waiting hf (by rw [hk]; simp) f hf
    exact Or.inr ⟨by simp, _, upd_self _ _ _, Or.inr ⟨hw, fun n hn => by rw [hk] at hn; exact hn⟩⟩
  case commit ht hk =>
    rw [hf] at ht; cases ht
    have hw := hQ.not_waiting hf (by rw [hk]; simp) f hf
    exact Or.inr ⟨by simp, _, upd_self _ _ _, Or.inr ⟨hw, fun n hn => by rw [hk] at hn; exact ⟨hn.1, hn.2 _⟩⟩⟩
  case send ht hk =>
    rw [hf] at ht; cases ht
    have hw := hQ.not_waiting hf (by rw [hk]; simp) f hf
    exact Or.inr ⟨by simp, _, upd_self _ _ _, Or.inr ⟨hw, fun n hn => by rw [hk] at hn; exact hn⟩⟩

/-- The first step of a program is its start. -/
theorem first_step {σ} {env : Env σ} {p : Profile} {s s' : Cfg σ} {lb : Label σ}
    (st : Cfg.Step env p s lb s') {t : Nat} (hf : s.flights t = none) (hp : prog lb = some t) :
    ∃ g, lb = .start t g.ev ∧ s'.flights t = some g := by
  cases st <;> simp only [prog, Option.some.injEq, reduceCtorEq] at hp <;> subst hp
  case iterate => exact ⟨_, rfl, upd_self _ _ _⟩
  case add => exact ⟨_, rfl, upd_self _ _ _⟩
  case remove => exact ⟨_, rfl, upd_self _ _ _⟩
  all_goals simp_all

/-- At most `b` more steps. -/
def Flight.Within {σ} (f : Flight σ) (b : Nat) : Prop :=
  ∃ n, f.code.Fits n ∧ 2 * n + (if f.waiting then 1 else 2) ≤ b

/-- Each step of a program brings it nearer to its end. -/
theorem own_step_within {σ} {env : Env σ} {p : Profile} {s s' : Cfg σ} {lb : Label σ} (hQ : QInv s)
    (st : Cfg.Step env p s lb s') {t : Nat} {f : Flight σ} (hf : s.flights t = some f)
    (hp : prog lb = some t) {b : Nat} (hb : f.Within b) :
    0 < b ∧ ∀ g, s'.flights t = some g → g.Within (b - 1) := by
  obtain ⟨n, hn, hle⟩ := hb
  refine ⟨by split at hle <;> omega, fun g hg => ?_⟩
  rcases own_step hQ st hf hp with ⟨h1, _⟩ | ⟨_, g', hg', ⟨h1, h2, h3, _⟩ | ⟨h1, h2⟩⟩
  · rw [h1] at hg; simp at hg
  · rw [hg'] at hg; cases hg
    refine ⟨n, h3 ▸ hn, ?_⟩
    rw [h1] at hle; rw [h2]; simp at hle ⊢; omega
  · rw [hg'] at hg; cases hg
    obtain ⟨hpos, hfit⟩ := h2 n hn
    refine ⟨n - 1, hfit, ?_⟩
    rw [h1]; simp
    split at hle <;> omega

theorem start_within {σ} {env : Env σ} {p : Profile} {s s' : Cfg σ} {lb : Label σ}
    (st : Cfg.Step env p s lb s') {t : Nat} (ht : s.flights t = none) {g : Flight σ}
    (hg : s'.flights t = some g) : g.Within 26 := by
  rcases flight_step st hg with ⟨f, hf, _⟩ | ⟨_, _, ⟨c, w, x, rfl, _⟩ | ⟨d, rfl⟩ | ⟨i, rfl⟩⟩
  · rw [ht] at hf; simp at hf
  · exact ⟨12, iterTask_Fits env p x w, by simp [Flight.start]⟩
  · exact ⟨12, addTask_Fits d, by simp [Flight.start]⟩
  · exact ⟨12, removeTask_Fits i, by simp [Flight.start]⟩

theorem within_reach {σ} {env : Env σ} {p : Profile} {devices : List Device} {w : World σ}
    {ls : List (Label σ)} {s : Cfg σ} (h : Cfg.Reach env p (Cfg.init devices w) ls s) :
    ∀ t f, s.flights t = some f → f.Within 26 := by
  induction h with
  | refl => intro t f h; simp [Cfg.init] at h
  | @tail ls s lb s' h st ih =>
    intro t g hg
    cases hf : s.flights t with
    | none => exact start_within st hf hg
    | some f =>
      by_cases hp : prog lb = some t
      · obtain ⟨hb, hw⟩ := own_step_within (QInv.reach h) st hf hp (ih t f hf)
        obtain ⟨n, h1, h2⟩ := hw g hg
        exact ⟨n, h1, by omega⟩
      · rw [flights_other st hp, hf] at hg
        cases hg; exact ih t _ hf

/-- Only finitely many programs are in flight. -/
theorem finite_reach {σ} {env : Env σ} {p : Profile} {devices : List Device} {w : World σ}
    {ls : List (Label σ)} {s : Cfg σ} (h : Cfg.Reach env p (Cfg.init devices w) ls s) :
    ∃ N, ∀ t, N ≤ t → s.flights t = none := by
  induction h with
  | refl => exact ⟨0, fun t _ => rfl⟩
  | @tail ls s lb s' h st ih =>
    obtain ⟨N, hN⟩ := ih
    cases hp : prog lb with
    | none => exact ⟨N, fun t ht => by rw [flights_other st (by rw [hp]; simp)]; exact hN t ht⟩
    | some u =>
      refine ⟨max N (u + 1), fun t ht => ?_⟩
      rw [flights_other st (by rw [hp]; simp; omega)]
      exact hN t (by omega)

/-! ### Queues -/

/-- Nobody overtakes `t` in the queue. -/
theorem queue_step {σ} {env : Env σ} {p : Profile} {s s' : Cfg σ} {lb : Label σ} (hQ : QInv s)
    (st : Cfg.Step env p s lb s') {l : Lk} {pre post : List Nat} {t : Nat}
    (hq : s.queue l = pre ++ t :: post) (ht : prog lb ≠ some t) :
    ∃ pre' post', s'.queue l = pre' ++ t :: post' ∧ pre'.Sublist pre ∧
      (∀ u f g, s.flights u = some f → f.held l = none → s'.flights u = some g → g.held l ≠ none →
        pre = u :: pre') ∧
      (∀ u, prog lb = some u → u ∉ pre') := by
  have mem : ∀ u, u ∈ pre → ∃ f m k, s.flights u = some f ∧ f.waiting = true ∧ f.code = .lock l m k :=
    fun u hu => (hQ.queue l u).1 (by rw [hq]; simp [hu])
  -- a step that leaves the queues and the guards of others alone
  have plain : ∀ {u : Nat} {o : Option (Flight σ)}, s'.flights = upd s.flights u o →
      s'.queue l = s.queue l → prog lb = some u →
      (∀ f, s.flights u = some f → f.waiting = true → ∀ m k, f.code ≠ .lock l m k) →
      (∀ f g, s.flights u = some f → o = some g → f.held l = none → g.held l = none) →
      ∃ pre' post', s'.queue l = pre' ++ t :: post' ∧ pre'.Sublist pre ∧
      (∀ u f g, s.flights u = some f → f.held l = none → s'.flights u = some g → g.held l ≠ none →
        pre = u :: pre') ∧
      (∀ u, prog lb = some u → u ∉ pre') := by
    intro u o hfl hqq hp hnw hheld
    refine ⟨pre, post, hqq.trans hq, List.Sublist.refl _, fun v f g hf hn hg hh => ?_, fun v hv hm => ?_⟩
    · rw [hfl] at hg
      by_cases e : v = u
      · subst e; rw [upd_self] at hg
        exact absurd (hheld f g hf hg hn) hh
      · rw [upd_ne _ _ e, hf] at hg; cases hg; exact absurd hn hh
    · rw [hp] at hv; cases hv
      obtain ⟨f, m, k, h1, h2, h3⟩ := mem u hm
      exact hnw f h1 h2 m k h3
  have out : s'.flights = s.flights → s'.queue l = s.queue l → prog lb = none →
      ∃ pre' post', s'.queue l = pre' ++ t :: post' ∧ pre'.Sublist pre ∧
      (∀ u f g, s.flights u = some f → f.held l = none → s'.flights u = some g → g.held l ≠ none →
        pre = u :: pre') ∧
      (∀ u, prog lb = some u → u ∉ pre') := by
    intro hfl hqq hp
    refine ⟨pre, post, hqq.trans hq, List.Sublist.refl _, fun v f g hf hn hg hh => ?_, fun v hv => ?_⟩
    · rw [hfl, hf] at hg; cases hg; exact absurd hn hh
    · rw [hp] at hv; simp at hv
  cases st with
  | connect c input hc => exact out rfl rfl rfl
  | user f => exact out rfl rfl rfl
  | cancel c x hc hr hi => exact out rfl rfl rfl
  | iterate u c w x hu hc hr hi =>
    exact plain rfl rfl rfl (fun f hf => by rw [hu] at hf; simp at hf) (fun f g hf => by rw [hu] at hf; simp at hf)
  | add u d hu =>
    exact plain rfl rfl rfl (fun f hf => by rw [hu] at hf; simp at hf) (fun f g hf => by rw [hu] at hf; simp at hf)
  | remove u i hu =>
    exact plain rfl rfl rfl (fun f hf => by rw [hu] at hf; simp at hf) (fun f g hf => by rw [hu] at hf; simp at hf)
  | request u f l' m k hu hk hw =>
    by_cases e : l = l'
    · subst e
      refine ⟨pre, post ++ [u], by simp [upd_self, hq], List.Sublist.refl _, fun v f' g hf hn hg hh => ?_,
        fun v hv hm => ?_⟩
      · simp only [Cfg.put] at hg
        by_cases e : v = u
        · subst e; rw [upd_self] at hg
          rw [hu] at hf; cases hf; cases hg; exact absurd hn hh
        · rw [upd_ne _ _ e, hf] at hg; cases hg; exact absurd hn hh
      · cases hv
        obtain ⟨f', m', k', h1, h2, _⟩ := mem u hm
        rw [hu] at h1; cases h1; rw [hw] at h2; simp at h2
    · refine plain (u := u) rfl (upd_ne _ _ e) rfl (fun f' hf' h2 => ?_) (fun f' g hf' hg hn => ?_)
      · rw [hu] at hf'; cases hf'; rw [hw] at h2; simp at h2
      · rw [hu] at hf'; cases hf'; cases hg; exact hn
  | grant u f l' m k q hu hk hw hq' hc =>
    by_cases e : l = l'
    · subst e
      have hut : u ≠ t := fun e => ht (by rw [← e]; rfl)
      rw [hq] at hq'
      cases pre with
      | nil => simp at hq'; exact absurd hq'.1.symm hut
      | cons a pre' =>
        simp only [List.cons_append, List.cons.injEq] at hq'
        obtain ⟨rfl, rfl⟩ := hq'
        refine ⟨pre', post, upd_self _ _ _, List.sublist_cons_self _ _, fun v f' g hf hn hg hh => ?_,
          fun v hv hm => ?_⟩
        · simp only [Cfg.put] at hg
          by_cases e : v = a
          · rw [e]
          · rw [upd_ne _ _ e, hf] at hg; cases hg; exact absurd hn hh
        · cases hv
          have := hQ.nodup l
          rw [hq] at this
          simp only [List.cons_append, List.nodup_cons, List.mem_append, not_or] at this
          exact this.1.1 hm
    · refine plain (u := u) rfl (upd_ne _ _ e) rfl (fun f' hf' h2 m' k' h3 => ?_) (fun f' g hf' hg hn => ?_)
      · rw [hu] at hf'; cases hf'; rw [hk] at h3; cases h3; exact e rfl
      · rw [hu] at hf'; cases hf'; cases hg
        simp only [upd_ne _ _ e]; exact hn
  | unlock u f l' k hu hk =>
    refine plain (u := u) rfl rfl rfl (fun f' hf' _ m' k' h3 => ?_) (fun f' g hf' hg hn => ?_)
    · rw [hu] at hf'; cases hf'; rw [hk] at h3; simp at h3
    · rw [hu] at hf'; cases hf'; cases hg
      by_cases e : l = l'
      · subst e; exact upd_self _ _ _
      · simp only [upd_ne _ _ e]; exact hn
  | getUsed u f k hu hk =>
    refine plain (u := u) rfl rfl rfl (fun f' hf' _ m' k' h3 => ?_) (fun f' g hf' hg hn => ?_) <;>
      (rw [hu] at hf'; cases hf')
    · rw [hk] at h3; simp at h3
    · cases hg; exact hn
  | getAvail u f k hu hk =>
    refine plain (u := u) rfl rfl rfl (fun f' hf' _ m' k' h3 => ?_) (fun f' g hf' hg hn => ?_) <;>
      (rw [hu] at hf'; cases hf')
    · rw [hk] at h3; simp at h3
    · cases hg; exact hn
  | putUsed u f v k hu hk =>
    refine plain (u := u) rfl rfl rfl (fun f' hf' _ m' k' h3 => ?_) (fun f' g hf' hg hn => ?_) <;>
      (rw [hu] at hf'; cases hf')
    · rw [hk] at h3; simp at h3
    · cases hg; exact hn
  | putAvail u f v k hu hk =>
    refine plain (u := u) rfl rfl rfl (fun f' hf' _ m' k' h3 => ?_) (fun f' g hf' hg hn => ?_) <;>
      (rw [hu] at hf'; cases hf')
    · rw [hk] at h3; simp at h3
    · cases hg; exact hn
  | commit u f g' k hu hk =>
    refine plain (u := u) rfl rfl rfl (fun f' hf' _ m' k' h3 => ?_) (fun f' g hf' hg hn => ?_) <;>
      (rw [hu] at hf'; cases hf')
    · rw [hk] at h3; simp at h3
    · cases hg; exact hn
  | send u f k hu hk =>
    refine plain (u := u) rfl rfl rfl (fun f' hf' _ m' k' h3 => ?_) (fun f' g hf' hg hn => ?_) <;>
      (rw [hu] at hf'; cases hf')
    · rw [hk] at h3; simp at h3
    · cases hg; exact hn
  | finish u f x hu hk =>
    refine plain (u := u) rfl rfl rfl (fun f' hf' _ m' k' h3 => ?_) (fun f' g hf' hg hn => by simp at hg)
    rw [hu] at hf'; cases hf'
    rw [hk] at h3; simp at h3
  | abandon u f hu hc =>
    have hut : t ≠ u := fun e => ht (by rw [e]; rfl)
    refine ⟨pre.filter (fun v => v ≠ u), post.filter (fun v => v ≠ u), ?_, List.filter_sublist, fun v f' g hf hn hg hh => ?_,
      fun v hv hm => ?_⟩
    · simp only [hq, List.filter_append, List.filter_cons]
      simp [hut]
    · simp only [Cfg.put] at hg
      by_cases e : v = u
      · subst e; rw [upd_self] at hg; simp at hg
      · rw [upd_ne _ _ e, hf] at hg; cases hg; exact absurd hn hh
    · cases hv
      simp at hm

theorem Spec.Gets.reach {σ} {env : Env σ} {p : Profile} {l : Lk} {s0 s s' : Cfg σ} {ls0 ls : List (Label σ)}
    {us : List Nat} (h : Gets env p l s ls us s') (h0 : Cfg.Reach env p s0 ls0 s) :
    Cfg.Reach env p s0 (ls0 ++ ls) s' := by
  induction h with
  | refl => rw [List.append_nil]; exact h0
  | got h st _ _ _ _ ih => rw [← List.append_assoc]; exact .tail ih st
  | nobody h st _ ih => rw [← List.append_assoc]; exact .tail ih st

/-- Who gets the lock before `t` was in the queue before it. -/
theorem Spec.Gets.queue {σ} {env : Env σ} {p : Profile} {devices : List Device} {w : World σ} {l : Lk}
    {s s' : Cfg σ} {ls0 ls : List (Label σ)} {us pre post : List Nat} {t : Nat}
    (h0 : Cfg.Reach env p (Cfg.init devices w) ls0 s) (h : Gets env p l s ls us s')
    (hq : s.queue l = pre ++ t :: post) (ht : ∀ lb ∈ ls, prog lb ≠ some t) :
    ∃ pre' post', s'.queue l = pre' ++ t :: post' ∧ (us ++ pre').Sublist pre := by
  induction h with
  | refl => exact ⟨pre, post, hq, List.Sublist.refl _⟩
  | @got ls us s1 lb s2 u f g h st hf hn hg hh ih =>
    obtain ⟨pre', post', hq1, hs⟩ := ih (fun lb' hm => ht lb' (by simp [hm]))
    obtain ⟨pre2, post2, hq2, _, h3, _⟩ := queue_step (QInv.reach (h.reach h0)) st hq1 (ht lb (by simp))
    refine ⟨pre2, post2, hq2, ?_⟩
    rw [h3 u f g hf hn hg hh] at hs
    simpa using hs
  | @nobody ls us s1 lb s2 h st hno ih =>
    obtain ⟨pre', post', hq1, hs⟩ := ih (fun lb' hm => ht lb' (by simp [hm]))
    obtain ⟨pre2, post2, hq2, hsub, _, _⟩ := queue_step (QInv.reach (h.reach h0)) st hq1 (ht lb (by simp))
    exact ⟨pre2, post2, hq2, (List.Sublist.append_left hsub us).trans hs⟩

/-! ### Fair executions -/

section
variable {σ : Type} {env : Env σ} {p : Profile} {devices : List Device} {w : World σ}
  (e : Exec env p (Cfg.init devices w))

theorem Spec.Exec.reach (n : Nat) :
    Cfg.Reach env p (Cfg.init devices w) ((List.range n).map e.label) (e.state n) := by
  induction n with
  | zero => rw [e.init]; exact .refl
  | succ n ih =>
    rw [List.range_succ, List.map_append]
    exact .tail ih (e.step n)

/-- Program `t` makes a step at time `n` or later. -/
def Spec.Exec.Moves (t n : Nat) : Prop := ∃ m, n ≤ m ∧ prog (e.label m) = some t

theorem exec_stays {t n : Nat} : ∀ k, (∀ j, n ≤ j → j < n + k → prog (e.label j) ≠ some t) →
    (e.state (n + k)).flights t = (e.state n).flights t := by
  intro k
  induction k with
  | zero => intro _; rfl
  | succ k ih =>
    intro h
    rw [← ih (fun j h1 h2 => h j h1 (by omega))]
    exact flights_other (e.step (n + k)) (h (n + k) (by omega) (by omega))

theorem exec_still {t n m : Nat} (hm : n ≤ m) (h : ∀ j, n ≤ j → j < m → prog (e.label j) ≠ some t) :
    (e.state m).flights t = (e.state n).flights t := by
  obtain ⟨k, rfl⟩ := Nat.exists_eq_add_of_le hm
  exact exec_stays e k h

theorem exec_first {t n : Nat} (h : e.Moves t n) :
    ∃ m, n ≤ m ∧ prog (e.label m) = some t ∧ (e.state m).flights t = (e.state n).flights t := by
  obtain ⟨m, hm, hp⟩ := h
  induction m using Nat.strongRecOn with
  | ind m ih =>
    by_cases h : ∃ j, n ≤ j ∧ j < m ∧ prog (e.label j) = some t
    · obtain ⟨j, h1, h2, h3⟩ := h
      exact ih j h2 h1 h3
    · exact ⟨m, hm, hp, exec_still e hm (fun j h1 h2 h3 => h ⟨j, h1, h2, h3⟩)⟩

theorem canMove_of_free {s : Cfg σ} {t : Nat} {f : Flight σ} (ht : s.flights t = some f)
    (hw : f.waiting = false) : CanMove env p s t := by
  cases hk : f.code with
  | done x => exact ⟨_, _, .finish s t f x ht hk, trivial, rfl⟩
  | lock l m k => exact ⟨_, _, .request s t f l m k ht hk hw, trivial, rfl⟩
  | unlock l k => exact ⟨_, _, .unlock s t f l k ht hk, trivial, rfl⟩
  | getUsed k => exact ⟨_, _, .getUsed s t f k ht hk, trivial, rfl⟩
  | getAvail k => exact ⟨_, _, .getAvail s t f k ht hk, trivial, rfl⟩
  | putUsed v k => exact ⟨_, _, .putUsed s t f v k ht hk, trivial, rfl⟩
  | putAvail v k => exact ⟨_, _, .putAvail s t f v k ht hk, trivial, rfl⟩
  | commit g k => exact ⟨_, _, .commit s t f g k ht hk, trivial, rfl⟩
  | send k => exact ⟨_, _, .send s t f k ht hk, trivial, rfl⟩

theorem moves_of_free (hfair : e.Fair) {t n : Nat} {f : Flight σ}
    (ht : (e.state n).flights t = some f) (hw : f.waiting = false) : e.Moves t n := by
  refine Classical.byContradiction fun hno => ?_
  have hnm : ∀ m, n ≤ m → prog (e.label m) ≠ some t := fun m hm hp => hno ⟨m, hm, hp⟩
  obtain ⟨m, hm, h | h⟩ := hfair t n
  · exact hnm m hm h
  · refine h (canMove_of_free (f := f) ?_ hw)
    rw [exec_still e hm (fun j h1 _ => hnm j h1), ht]

/-- Program `u` does not hold lock `l`. -/
def Free (s : Cfg σ) (u : Nat) (l : Lk) : Prop := ∀ f, s.flights u = some f → f.held l = none

/-- A holder that keeps moving lets go. -/
theorem releases {l : Lk}
    (H : ∀ n u f, (e.state n).flights u = some f → f.held l ≠ none → e.Moves u n) :
    ∀ b n u f, (e.state n).flights u = some f → f.Within b → ∃ m, n ≤ m ∧ Free (e.state m) u l := by
  intro b
  induction b with
  | zero =>
    intro n u f hf hb
    obtain ⟨k, _, hk⟩ := hb
    split at hk <;> omega
  | succ b ih =>
    intro n u f hf hb
    by_cases hh : f.held l = none
    · exact ⟨n, Nat.le_refl n, fun g hg => by rw [hf] at hg; cases hg; exact hh⟩
    · obtain ⟨m, hm, hp, hs⟩ := exec_first e (H n u f hf hh)
      obtain ⟨_, hg⟩ := own_step_within (QInv.reach (e.reach m)) (e.step m) (hs.trans hf) hp hb
      cases hn : (e.state (m + 1)).flights u with
      | none => exact ⟨m + 1, by omega, fun g hg => by rw [hn] at hg; simp at hg⟩
      | some g =>
        obtain ⟨m', hm', hfree⟩ := ih (m + 1) u g hn (hg g hn)
        exact ⟨m', by omega, hfree⟩

/-- The first in the queue gets the lock. -/
theorem head_moves (hfair : e.Fair) {l : Lk}
    (H : ∀ n u f, (e.state n).flights u = some f → f.held l ≠ none → e.Moves u n)
    {n t : Nat} {q : List Nat} (hq : (e.state n).queue l = t :: q) : e.Moves t n := by
  refine Classical.byContradiction fun hno => ?_
  have hnm : ∀ m, n ≤ m → prog (e.label m) ≠ some t := fun m hm hp => hno ⟨m, hm, hp⟩
  have hhead : ∀ k, ∃ q', (e.state (n + k)).queue l = t :: q' := by
    intro k
    induction k with
    | zero => exact ⟨q, hq⟩
    | succ k ih =>
      obtain ⟨q', hq'⟩ := ih
      obtain ⟨pre, post, h1, h2, _⟩ := queue_step (QInv.reach (e.reach (n + k))) (e.step (n + k))
        (pre := []) hq' (hnm (n + k) (by omega))
      rw [List.sublist_nil.1 h2] at h1
      exact ⟨post, h1⟩
  have hkeep1 : ∀ k u, Free (e.state (n + k)) u l → Free (e.state (n + k + 1)) u l := by
    intro k u hfree g hg
    obtain ⟨q', hq'⟩ := hhead k
    obtain ⟨pre, post, _, _, h3, _⟩ := queue_step (QInv.reach (e.reach (n + k))) (e.step (n + k))
      (pre := []) hq' (hnm (n + k) (by omega))
    cases hf : (e.state (n + k)).flights u with
    | none =>
      rcases flight_step (e.step (n + k)) hg with ⟨f, hf', _⟩ | ⟨_, _, ⟨c, w, x, rfl, _⟩ | ⟨d, rfl⟩ | ⟨i, rfl⟩⟩
      · rw [hf] at hf'; simp at hf'
      · rfl
      · rfl
      · rfl
    | some f =>
      refine Classical.byContradiction fun hh => ?_
      have := h3 u f g hf (hfree f hf) hg hh
      simp at this
  have hkeep : ∀ k j u, Free (e.state (n + k)) u l → Free (e.state (n + (k + j))) u l := by
    intro k j u h
    induction j with
    | zero => exact h
    | succ j ih => exact hkeep1 (k + j) u ih
  obtain ⟨N, hN⟩ := finite_reach (e.reach n)
  have hall : ∀ K, ∃ k, ∀ u, u < K → Free (e.state (n + k)) u l := by
    intro K
    induction K with
    | zero => exact ⟨0, fun u hu => by omega⟩
    | succ K ih =>
      obtain ⟨k, hk⟩ := ih
      obtain ⟨j, hj⟩ : ∃ j, Free (e.state (n + (k + j))) K l := by
        cases hf : (e.state (n + k)).flights K with
        | none => exact ⟨0, fun g hg => by rw [Nat.add_zero, hf] at hg; simp at hg⟩
        | some f =>
          obtain ⟨m, hm, hfree⟩ := releases e H 26 (n + k) K f hf (within_reach (e.reach _) K f hf)
          refine ⟨m - (n + k), ?_⟩
          rw [show n + (k + (m - (n + k))) = m by omega]; exact hfree
      refine ⟨k + j, fun u hu => ?_⟩
      rcases Nat.lt_succ_iff_lt_or_eq.1 hu with hu | rfl
      · exact hkeep k j u (hk u hu)
      · exact hj
  obtain ⟨k, hk⟩ := hall N
  have hnone : ∀ j u, Free (e.state (n + (k + j))) u l := by
    intro j u
    refine hkeep k j u ?_
    by_cases hu : u < N
    · exact hk u hu
    · have : Free (e.state (n + 0)) u l := fun f hf => by
        rw [Nat.add_zero, hN u (by omega)] at hf; simp at hf
      have := hkeep 0 k u this
      rwa [Nat.zero_add] at this
  obtain ⟨m, hm, h | h⟩ := hfair t (n + k)
  · exact hnm m (by omega) h
  · obtain ⟨j, rfl⟩ := Nat.exists_eq_add_of_le hm
    obtain ⟨q', hq'⟩ := hhead (k + j)
    rw [← Nat.add_assoc] at hq'
    obtain ⟨f, m', k', hf, hw, hc⟩ := ((QInv.reach (e.reach (n + k + j))).queue l t).1 (by rw [hq']; simp)
    refine h ⟨_, _, .grant _ t f l m' k' q' hf hc hw hq' (fun u g m'' hu hg => ?_), trivial, rfl⟩
    have := hnone j u g (by rw [← Nat.add_assoc]; exact hu)
    rw [this] at hg; simp at hg

/-- If the first in the queue always gets the lock, everybody in the queue does. -/
theorem waiter_moves {l : Lk} {N : Nat}
    (H : ∀ n t q, N ≤ n → (e.state n).queue l = t :: q → e.Moves t n) :
    ∀ b n t pre post, N ≤ n → pre.length ≤ b → (e.state n).queue l = pre ++ t :: post → e.Moves t n := by
  intro b
  induction b with
  | zero =>
    intro n t pre post hN hb hq
    have : pre = [] := List.length_eq_zero_iff.1 (by omega)
    subst this
    exact H n t _ hN hq
  | succ b ih =>
    intro n t pre post hN hb hq
    cases pre with
    | nil => exact H n t _ hN hq
    | cons a pre =>
      refine Classical.byContradiction fun hno => ?_
      have hnm : ∀ m, n ≤ m → prog (e.label m) ≠ some t := fun m hm hp => hno ⟨m, hm, hp⟩
      obtain ⟨m, hm, hp⟩ := H n a _ hN hq
      have hev : ∀ k, ∃ pre' post', (e.state (n + k)).queue l = pre' ++ t :: post' ∧
          pre'.Sublist (a :: pre) := by
        intro k
        induction k with
        | zero => exact ⟨_, _, hq, List.Sublist.refl _⟩
        | succ k ihk =>
          obtain ⟨pre', post', h1, h2⟩ := ihk
          obtain ⟨pre2, post2, h3, h4, _⟩ := queue_step (QInv.reach (e.reach (n + k))) (e.step (n + k))
            h1 (hnm (n + k) (by omega))
          exact ⟨pre2, post2, h3, h4.trans h2⟩
      obtain ⟨k, rfl⟩ := Nat.exists_eq_add_of_le hm
      obtain ⟨pre', post', h1, h2⟩ := hev k
      obtain ⟨pre2, post2, h3, h4, _, h5⟩ := queue_step (QInv.reach (e.reach (n + k))) (e.step (n + k))
        h1 (hnm (n + k) (by omega))
      have hlt : pre2.length ≤ b := by
        have h6 := h4.trans h2
        have h7 : pre2.length ≠ (a :: pre).length := fun he => by
          have := h6.eq_of_length he
          exact h5 a hp (by rw [this]; simp)
        have h8 := h6.length_le
        simp only [List.length_cons] at hb h7 h8
        omega
      obtain ⟨m', hm', hp'⟩ := ih (n + k + 1) t pre2 post2 (by omega) hlt h3
      exact hnm m' (by omega) hp'

/-- If removals never wait for the used devices, everybody keeps moving. -/
theorem all_move (hfair : e.Fair)
    (hno : ∀ n t f i m k, (e.state n).flights t = some f → f.ev = .removeDevice i → f.code ≠ .lock .used m k) :
    ∀ n t f, (e.state n).flights t = some f → e.Moves t n := by
  have inq : ∀ n t f l m k, (e.state n).flights t = some f → f.waiting = true → f.code = .lock l m k →
      ∃ pre post, (e.state n).queue l = pre ++ t :: post := by
    intro n t f l m k hf hw hk
    exact List.append_of_mem (((QInv.reach (e.reach n)).queue l t).2 ⟨f, m, k, hf, hw, hk⟩)
  have own : ∀ n t f l m k, (e.state n).flights t = some f → f.code = .lock l m k → f.held l = none := by
    intro n t f l m k hf hk
    obtain ⟨d, hwl, _⟩ := ((CInv.reach (e.reach n)).fl t f hf).prog
    rw [hk] at hwl; exact hwl.2.1
  have hAvail : ∀ n u f, (e.state n).flights u = some f → f.held .avail ≠ none → e.Moves u n := by
    intro n u f hf hh
    refine moves_of_free e hfair hf ?_
    cases hw : f.waiting with
    | false => rfl
    | true =>
      obtain ⟨l, m, k, hk⟩ := (QInv.reach (e.reach n)).waits u f hf hw
      cases l with
      | avail => exact absurd (own n u f _ m k hf hk) hh
      | used =>
        have := (QInv.reach (e.reach n)).ord u f hf (fun i hi => hno n u f i m k hf hi hk)
        rw [hk] at this
        exact absurd (this.1 rfl) hh
  have hUsed : ∀ n u f, (e.state n).flights u = some f → f.held .used ≠ none → e.Moves u n := by
    intro n u f hf hh
    cases hw : f.waiting with
    | false => exact moves_of_free e hfair hf hw
    | true =>
      obtain ⟨l, m, k, hk⟩ := (QInv.reach (e.reach n)).waits u f hf hw
      cases l with
      | used => exact absurd (own n u f _ m k hf hk) hh
      | avail =>
        obtain ⟨pre, post, hq⟩ := inq n u f _ m k hf hw hk
        exact waiter_moves e (fun n t q _ => head_moves e hfair hAvail) _ n u pre post (Nat.zero_le n) (Nat.le_refl _) hq
  intro n t f hf
  cases hw : f.waiting with
  | false => exact moves_of_free e hfair hf hw
  | true =>
    obtain ⟨l, m, k, hk⟩ := (QInv.reach (e.reach n)).waits t f hf hw
    obtain ⟨pre, post, hq⟩ := inq n t f _ m k hf hw hk
    cases l with
    | used => exact waiter_moves e (fun n t q _ => head_moves e hfair hUsed) _ n t pre post (Nat.zero_le n) (Nat.le_refl _) hq
    | avail => exact waiter_moves e (fun n t q _ => head_moves e hfair hAvail) _ n t pre post (Nat.zero_le n) (Nat.le_refl _) hq

theorem completes {H : ∀ n t f, (e.state n).flights t = some f → e.Moves t n} :
    ∀ b n t f, (e.state n).flights t = some f → f.Within b →
      ∃ m, n ≤ m ∧ (e.label m = .ended t ∨ ∃ o, e.label m = .dropped t o) := by
  intro b
  induction b with
  | zero =>
    intro n u f hf hb
    obtain ⟨k, _, hk⟩ := hb
    split at hk <;> omega
  | succ b ih =>
    intro n t f hf hb
    obtain ⟨m, hm, hp, hs⟩ := exec_first e (H n t f hf)
    rcases own_step (QInv.reach (e.reach m)) (e.step m) (hs.trans hf) hp with ⟨_, hl⟩ | ⟨_, g, hg, _⟩
    · exact ⟨m, hm, hl⟩
    · obtain ⟨_, hw⟩ := own_step_within (QInv.reach (e.reach m)) (e.step m) (hs.trans hf) hp hb
      obtain ⟨m', hm', h⟩ := ih (m + 1) t g hg (hw g hg)
      exact ⟨m', by omega, h⟩

end

end Usbip
