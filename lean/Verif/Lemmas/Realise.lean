import Verif.Lemmas.Atomic
/-! Helper lemmas: a program that runs alone. -/

namespace Usbip

theorem upd_upd {α β} [DecidableEq α] (f : α → β) (a : α) (b b' : β) : upd (upd f a b) a b' = upd f a b' := by
  funext x
  by_cases e : x = a
  · subst e; rw [upd_self, upd_self]
  · rw [upd_ne _ _ e, upd_ne _ _ e, upd_ne _ _ e]

theorem upd_eq_self {α β} [DecidableEq α] (f : α → β) (a : α) : upd f a (f a) = f := by
  funext x
  by_cases e : x = a
  · subst e; rw [upd_self]
  · rw [upd_ne _ _ e]

/-- Nothing in flight. -/
def Cfg.quiet {σ} (sh : Shared σ) (conns : Nat → Option Conn) : Cfg σ :=
  { shared := sh, conns := conns, flights := fun _ => none, queue := fun _ => [] }

/-- Only one program in flight. -/
def Cfg.lone {σ} (sh : Shared σ) (conns : Nat → Option Conn) (t : Nat) (f : Flight σ) : Cfg σ :=
  { shared := sh, conns := conns, flights := upd (fun _ => none) t (some f), queue := fun _ => [] }

theorem Cfg.lone_at {σ} (sh : Shared σ) (conns : Nat → Option Conn) (t : Nat) (f : Flight σ) :
    (Cfg.lone sh conns t f).flights t = some f := by
  simp only [Cfg.lone, upd_self]

theorem Cfg.lone_put {σ} (sh : Shared σ) (conns : Nat → Option Conn) (t : Nat) (f f' : Flight σ) :
    (Cfg.lone sh conns t f).put t (some f') = Cfg.lone sh conns t f' := by
  simp only [Cfg.lone, Cfg.put, upd_upd]

theorem Cfg.Reach.step {σ} {env : Env σ} {p : Profile} {s s' s'' : Cfg σ} {lb : Label σ} {ls : List (Label σ)}
    (st : Cfg.Step env p s lb s') (h : Cfg.Reach env p s' ls s'') : Cfg.Reach env p s (lb :: ls) s'' := by
  induction h with
  | refl => exact .tail .refl st
  | tail _ st' ih => exact .tail ih st'

/-- A program that runs alone, to its end. -/
theorem run_alone {σ} (env : Env σ) (p : Profile) (t : Nat) (conns : Nat → Option Conn) (ev : Event σ)
    (owner : Option Nat) (code : Task σ) : ∀ (held : Lk → Option Mode) (c d : Bool) (sh : Shared σ),
    code.WL held c d →
    ∃ ls, Cfg.Reach env p (Cfg.lone sh conns t ⟨ev, owner, code, held, false, c⟩) ls
        (Cfg.quiet (code.exec sh).1 (finished conns owner (code.exec sh).2)) ∧
      ls.filterMap Label.event = if c then [] else [ev] := by
  induction code with
  | done x =>
    intro held c d sh h
    obtain ⟨rfl, _⟩ := h
    refine ⟨[.ended t], .step (.finish _ t _ x (Cfg.lone_at _ _ _ _) rfl) ?_, rfl⟩
    have : ({ (Cfg.lone sh conns t ⟨ev, owner, .done x, held, false, true⟩).put t none with
        conns := finished conns owner x } : Cfg σ) = Cfg.quiet sh (finished conns owner x) := by
      simp only [Cfg.lone, Cfg.put, Cfg.quiet, upd_upd]
      congr 1
      exact upd_eq_self (fun _ => none) t
    exact this ▸ .refl
  | lock l m k ih =>
    intro held c d sh h
    obtain ⟨rfl, hl, h⟩ := h
    obtain ⟨ls, hr, he⟩ := ih _ _ _ sh h
    refine ⟨.inner t :: .inner t :: ls, .step (.request _ t _ l m k (Cfg.lone_at _ _ _ _) rfl rfl)
      (.step (.grant _ t ⟨ev, owner, .lock l m k, held, true, false⟩ l m k [] (by simp [Cfg.lone, Cfg.put, upd_self]) rfl rfl
        (by simp [upd_self, Cfg.lone]) ?_) ?_), ?_⟩
    · intro u g hh hu hg
      by_cases e : u = t
      · subst e
        simp only [Cfg.put, upd_self, Option.some.injEq] at hu
        subst hu
        dsimp only at hg; rw [hl] at hg; simp at hg
      · simp [Cfg.put, Cfg.lone, upd_ne _ _ e] at hu
    · simp only [Cfg.lone, Cfg.put, upd_upd] at hr ⊢
      rw [upd_eq_self (fun _ => ([] : List Nat)) l]
      exact hr
    · simpa [List.filterMap_cons, Label.event] using he
  | unlock l k ih =>
    intro held c d sh h
    obtain ⟨ls, hr, he⟩ := ih _ _ _ sh h.2.2
    refine ⟨.inner t :: ls, .step (.unlock _ t _ l k (Cfg.lone_at _ _ _ _) rfl) ?_, ?_⟩
    · rw [Cfg.lone_put]; exact hr
    · simpa [List.filterMap_cons, Label.event] using he
  | getUsed k ih =>
    intro held c d sh h
    obtain ⟨ls, hr, he⟩ := ih _ _ _ _ sh (h.2 sh.used)
    refine ⟨.inner t :: ls, .step (.getUsed _ t _ k (Cfg.lone_at _ _ _ _) rfl) ?_, ?_⟩
    · rw [Cfg.lone_put]; exact hr
    · simpa [List.filterMap_cons, Label.event] using he
  | getAvail k ih =>
    intro held c d sh h
    obtain ⟨ls, hr, he⟩ := ih _ _ _ _ sh (h.2 sh.available)
    refine ⟨.inner t :: ls, .step (.getAvail _ t _ k (Cfg.lone_at _ _ _ _) rfl) ?_, ?_⟩
    · rw [Cfg.lone_put]; exact hr
    · simpa [List.filterMap_cons, Label.event] using he
  | putUsed v k ih =>
    intro held c d sh h
    obtain ⟨ls, hr, he⟩ := ih _ _ _ { sh with used := v } h.2.2
    refine ⟨.inner t :: ls, .step (.putUsed _ t _ v k (Cfg.lone_at _ _ _ _) rfl) ?_, ?_⟩
    · rw [Cfg.lone_put]; exact hr
    · simpa [List.filterMap_cons, Label.event] using he
  | putAvail v k ih =>
    intro held c d sh h
    obtain ⟨ls, hr, he⟩ := ih _ _ _ { sh with available := v } h.2.2
    refine ⟨.inner t :: ls, .step (.putAvail _ t _ v k (Cfg.lone_at _ _ _ _) rfl) ?_, ?_⟩
    · rw [Cfg.lone_put]; exact hr
    · simpa [List.filterMap_cons, Label.event] using he
  | commit f k ih =>
    intro held c d sh h
    obtain ⟨rfl, h⟩ := h
    obtain ⟨ls, hr, he⟩ := ih _ _ _ _ { sh with world := f sh.world } (h sh.world)
    refine ⟨.effect t ev :: ls, .step (.commit _ t _ f k (Cfg.lone_at _ _ _ _) rfl) ?_, ?_⟩
    · rw [Cfg.lone_put]; exact hr
    · simpa [List.filterMap_cons, Label.event] using he
  | send k ih =>
    intro held c d sh h
    obtain ⟨ls, hr, he⟩ := ih _ _ _ sh h.2
    refine ⟨.inner t :: ls, .step (.send _ t _ k (Cfg.lone_at _ _ _ _) rfl) ?_, ?_⟩
    · rw [Cfg.lone_put]; exact hr
    · simpa [List.filterMap_cons, Label.event] using he

/-- One event, executed alone. -/
theorem realise_step {σ} (env : Env σ) (p : Profile) (S : Sys σ) (e : Event σ) :
    ∃ ls, Cfg.Reach env p (Cfg.quiet S.shared S.conns) ls
        (Cfg.quiet (S.step env p e).shared (S.step env p e).conns) ∧
      (ls.filterMap Label.event = [e] ∨ (ls = [] ∧ S.step env p e = S)) := by
  have start : ∀ f : Flight σ, (Cfg.quiet S.shared S.conns).put 0 (some f) = Cfg.lone S.shared S.conns 0 f := by
    intro f; rfl
  have stay : S.step env p e = S → ∃ ls, Cfg.Reach env p (Cfg.quiet S.shared S.conns) ls
        (Cfg.quiet (S.step env p e).shared (S.step env p e).conns) ∧
      (ls.filterMap Label.event = [e] ∨ (ls = [] ∧ S.step env p e = S)) := by
    intro h
    refine ⟨[], ?_, Or.inr ⟨rfl, h⟩⟩
    rw [h]; exact .refl
  cases e with
  | connect c input =>
    cases hc : S.conns c with
    | some x => exact stay (by simp only [Sys.step, hc])
    | none =>
      refine ⟨[.outside (.connect c input)], .step (.connect _ c input hc) ?_, Or.inl rfl⟩
      simp only [Sys.step, hc]
      exact .refl
  | user f crash => exact ⟨[.outside (.user f crash)], .step (.user _ f crash) .refl, Or.inl rfl⟩
  | cancel c =>
    cases hc : S.conns c with
    | none => exact stay (by simp only [Sys.step, hc])
    | some x =>
      by_cases hr : x.status = .running
      · refine ⟨[.outside (.cancel c)], .step (.cancel _ c x hc hr (fun t f h => by simp [Cfg.quiet] at h)) ?_, Or.inl rfl⟩
        simp only [Sys.step, hc, if_pos hr]
        exact .refl
      · exact stay (by simp only [Sys.step, hc, if_neg hr])
  | addDevice d =>
    obtain ⟨ls, hr, he⟩ := run_alone env p 0 S.conns (.addDevice d) none (addTask d) _ _ _ S.shared (addTask_WL d)
    refine ⟨_, .step (.add _ 0 d rfl) (by rw [start]; exact hr), Or.inl (by rw [List.filterMap_cons]; exact he)⟩
  | removeDevice i =>
    obtain ⟨ls, hr, he⟩ := run_alone env p 0 S.conns (.removeDevice i) none (removeTask i) _ _ _ S.shared
      (removeTask_WL i)
    rw [removeTask_exec] at hr
    refine ⟨_, .step (.remove _ 0 i rfl) (by rw [start]; exact hr), Or.inl (by rw [List.filterMap_cons]; exact he)⟩
  | iterate c w =>
    cases hc : S.conns c with
    | none => exact stay (by simp only [Sys.step, hc])
    | some x =>
      by_cases hr : x.status = .running
      · obtain ⟨ls, hR, he⟩ := run_alone env p 0 S.conns (.iterate c w) (some c) (iterTask env p x w) _ _ _ S.shared
          (iterTask_WL env p x w)
        rw [iterTask_exec] at hR
        refine ⟨_, .step (.iterate _ 0 c w x rfl hc hr (fun t f h => by simp [Cfg.quiet] at h))
          (by rw [start]; simp only [Sys.step, hc, if_pos hr]; exact hR), Or.inl (by rw [List.filterMap_cons]; exact he)⟩
      · exact stay (by simp only [Sys.step, hc, if_neg hr])

end Usbip
