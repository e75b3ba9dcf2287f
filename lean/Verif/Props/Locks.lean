import Verif.Lemmas.Progress
import Verif.Spec.Samples
import Verif.Props.Codec
/-!
# Concurrency: deadlock, atomicity, stalling (C34, C35, C49)
-/

namespace Usbip
open Spec Samples

/-! ## C35 -/

/-- C35: whatever was run concurrently and however it was interleaved, when nothing is in flight the
tables, the handlers' state and all connections are exactly what the events give when executed one
at a time, in the order in which the programs had their effects. -/
theorem C35_atomic {σ} (env : Env σ) (p : Profile) (devices : List Device) (w : World σ)
    (ls : List (Label σ)) (s : Cfg σ) (h : Cfg.Reach env p (Cfg.init devices w) ls s)
    (hidle : ∀ t, s.flights t = none) :
    let S := (Sys.init devices w).run env p (ls.filterMap Label.event)
    s.shared = S.shared ∧ s.conns = S.conns := by
  have hI := CInv.reach h
  have hu := hI.data .used (fun t f ht => by rw [hidle t] at ht; simp at ht)
  have ha := hI.data .avail (fun t f ht => by rw [hidle t] at ht; simp at ht)
  have hw := hI.world
  refine ⟨?_, funext fun c => (hI.conns c (fun t f ht => by rw [hidle t] at ht; simp at ht)).symm⟩
  generalize ((Sys.init devices w).run env p (ls.filterMap Label.event)) = S at *
  rcases hs : s.shared with ⟨a, u, wd⟩
  rcases hS : S.shared with ⟨a', u', wd'⟩
  simp only [hs, hS, Same] at hu ha hw
  rw [hu, ha, hw]

/-- C35, while programs are running: a connection without a program in flight is what the events so
far give, and so is a table nobody holds for writing. -/
theorem C35_observed {σ} (env : Env σ) (p : Profile) (devices : List Device) (w : World σ)
    (ls : List (Label σ)) (s : Cfg σ) (h : Cfg.Reach env p (Cfg.init devices w) ls s) :
    let S := (Sys.init devices w).run env p (ls.filterMap Label.event)
    s.shared.world = S.shared.world ∧
    (∀ c, s.idle c → s.conns c = S.conns c) ∧
    ((∀ t f, s.flights t = some f → f.held .used ≠ some .w) → s.shared.used = S.shared.used) ∧
    ((∀ t f, s.flights t = some f → f.held .avail ≠ some .w) →
      s.shared.available = S.shared.available) := by
  have hI := CInv.reach h
  exact ⟨hI.world.symm, fun c hc => (hI.conn_idle hc).symm,
    fun hn => (hI.data .used (fun t f ht _ => hn t f ht)).symm,
    fun hn => (hI.data .avail (fun t f ht _ => hn t f ht)).symm⟩

/-- Where program `t` is. -/
def phase {σ} (s : Cfg σ) (t : Nat) : Phase σ :=
  match s.flights t with
  | none => .idle
  | some f => if f.committed then .effected else .begun f.ev

/-- C35: each program has its effect exactly once, between its start and its end, or is dropped
without effect: the order of effects is an order in which the operations can be said to happen. -/
theorem C35_lifetime {σ} (env : Env σ) (p : Profile) (devices : List Device) (w : World σ)
    (ls : List (Label σ)) (s : Cfg σ) (h : Cfg.Reach env p (Cfg.init devices w) ls s) (t : Nat) :
    Life t ls (phase s t) := by
  induction h with
  | refl => exact .nil
  | @tail ls s lb s' h st ih =>
    by_cases hne : prog lb = some t
    case neg =>
      have : phase s' t = phase s t := by unfold phase; rw [flights_other st hne]
      rw [this]
      exact .other ih hne
    have hI := CInv.reach h
    have inner : ∀ {f f' : Flight σ}, s.flights t = some f → s'.flights t = some f' →
        f'.committed = f.committed → f'.ev = f.ev → Life t (ls ++ [.inner t]) (phase s' t) := by
      intro f f' hf hf' hc he
      unfold phase at ih ⊢
      rw [hf] at ih
      rw [hf']
      dsimp only at ih ⊢
      rw [hc, he]
      cases hcm : f.committed with
      | true => rw [hcm] at ih; exact .effectedInner ih
      | false => rw [hcm] at ih; exact .begunInner ih
    cases st with
    | connect c input hc => simp [prog] at hne
    | user f => simp [prog] at hne
    | cancel c x hc hr hi => simp [prog] at hne
    | iterate t' c w' x ht hc hr hi =>
      simp only [prog, Option.some.injEq] at hne; subst hne
      have e : phase s t' = .idle := by unfold phase; rw [ht]
      have e' : phase (s.put t' (some (Flight.start (.iterate c w') (some c) (iterTask env p x w')))) t'
          = .begun (.iterate c w') := by unfold phase; rw [put_same]; rfl
      rw [e] at ih; rw [e']; exact .start _ ih
    | add t' d ht =>
      simp only [prog, Option.some.injEq] at hne; subst hne
      have e : phase s t' = .idle := by unfold phase; rw [ht]
      have e' : phase (s.put t' (some (Flight.start (.addDevice d) none (addTask d)))) t'
          = .begun (.addDevice d) := by unfold phase; rw [put_same]; rfl
      rw [e] at ih; rw [e']; exact .start _ ih
    | remove t' i ht =>
      simp only [prog, Option.some.injEq] at hne; subst hne
      have e : phase s t' = .idle := by unfold phase; rw [ht]
      have e' : phase (s.put t' (some (Flight.start (.removeDevice i) none (removeTask i)))) t'
          = .begun (.removeDevice i) := by unfold phase; rw [put_same]; rfl
      rw [e] at ih; rw [e']; exact .start _ ih
    | request t' f l m k ht hk hw =>
      simp only [prog, Option.some.injEq] at hne; subst hne
      exact inner ht (upd_self _ _ _) rfl rfl
    | grant t' f l m k q ht hk hw hq hc =>
      simp only [prog, Option.some.injEq] at hne; subst hne
      exact inner ht (upd_self _ _ _) rfl rfl
    | unlock t' f l k ht hk =>
      simp only [prog, Option.some.injEq] at hne; subst hne
      exact inner ht (upd_self _ _ _) rfl rfl
    | getUsed t' f k ht hk =>
      simp only [prog, Option.some.injEq] at hne; subst hne
      exact inner ht (upd_self _ _ _) rfl rfl
    | getAvail t' f k ht hk =>
      simp only [prog, Option.some.injEq] at hne; subst hne
      exact inner ht (upd_self _ _ _) rfl rfl
    | putUsed t' f v k ht hk =>
      simp only [prog, Option.some.injEq] at hne; subst hne
      exact inner ht (upd_self _ _ _) rfl rfl
    | putAvail t' f v k ht hk =>
      simp only [prog, Option.some.injEq] at hne; subst hne
      exact inner ht (upd_self _ _ _) rfl rfl
    | send t' f k ht hk =>
      simp only [prog, Option.some.injEq] at hne; subst hne
      exact inner ht (upd_self _ _ _) rfl rfl
    | commit t' f g k ht hk =>
      simp only [prog, Option.some.injEq] at hne; subst hne
      obtain ⟨d, hwl, _⟩ := (hI.fl t' f ht).prog
      rw [hk] at hwl
      have e : phase s t' = .begun f.ev := by
        unfold phase; rw [ht]; dsimp only; rw [hwl.1]; rfl
      rw [e] at ih
      have e' : phase { s.put t' (some { f with code := k s.shared.world, committed := true })
          with shared := { s.shared with world := g s.shared.world } } t' = .effected := by
        simp [phase, Cfg.put, upd_self]
      rw [e']
      exact .effect ih
    | finish t' f x ht hk =>
      simp only [prog, Option.some.injEq] at hne; subst hne
      obtain ⟨d, hwl, _⟩ := (hI.fl t' f ht).prog
      rw [hk] at hwl
      have e : phase s t' = .effected := by
        unfold phase; rw [ht]; dsimp only; rw [hwl.1]; rfl
      rw [e] at ih
      have e' : phase { s.put t' none with conns := finished s.conns f.owner x } t' = .idle := by
        simp [phase, Cfg.put, upd_self]
      rw [e']
      exact .ended ih
    | abandon t' f ht hc =>
      simp only [prog, Option.some.injEq] at hne; subst hne
      have e : phase s t' = .begun f.ev := by
        unfold phase; rw [ht]; dsimp only; rw [hc]; rfl
      rw [e] at ih
      have e' : phase { s.put t' none with
          queue := fun l => (s.queue l).filter (fun u => u ≠ t'), conns := dropped s.conns f.owner } t'
          = .idle := by simp [phase, Cfg.put, upd_self]
      rw [e']
      exact .dropped _ ih

/-- C35: the order of effects is the order of locking: a program reads a table only while it holds
its lock, writes it only while it alone holds it, asks for no lock once its effect has taken place,
and ends holding nothing. -/
theorem C35_guarded {σ} (env : Env σ) (p : Profile) (devices : List Device) (w : World σ)
    (ls : List (Label σ)) (s : Cfg σ) (h : Cfg.Reach env p (Cfg.init devices w) ls s)
    (t : Nat) (f : Flight σ) (ht : s.flights t = some f) :
    (∀ k, f.code = .getUsed k → f.held .used ≠ none) ∧
    (∀ k, f.code = .getAvail k → f.held .avail ≠ none) ∧
    (∀ v k, f.code = .putUsed v k → f.held .used = some .w ∧
      ∀ u g, u ≠ t → s.flights u = some g → g.held .used = none) ∧
    (∀ v k, f.code = .putAvail v k → f.held .avail = some .w ∧
      ∀ u g, u ≠ t → s.flights u = some g → g.held .avail = none) ∧
    (∀ l m k, f.code = .lock l m k → f.committed = false ∧ f.held l = none) ∧
    (∀ x, f.code = .done x → ∀ l, f.held l = none) := by
  have hI := CInv.reach h
  obtain ⟨d, hwl, _⟩ := (hI.fl t f ht).prog
  have alone : ∀ l, f.held l = some .w → ∀ u g, u ≠ t → s.flights u = some g → g.held l = none := by
    intro l hl u g hne hu
    cases hm : g.held l with
    | none => rfl
    | some m =>
      have := hI.excl u t g f l m .w hne hu ht hm hl
      rw [compatible_w] at this; simp at this
  refine ⟨fun k hk => ?_, fun k hk => ?_, fun v k hk => ?_, fun v k hk => ?_, fun l m k hk => ?_,
    fun x hk => ?_⟩ <;> rw [hk] at hwl
  · exact hwl.1
  · exact hwl.1
  · exact ⟨hwl.2.1, alone _ hwl.2.1⟩
  · exact ⟨hwl.2.1, alone _ hwl.2.1⟩
  · exact ⟨hwl.1, hwl.2.1⟩
  · exact hwl.2

/-! ## C34 -/

/-- C34, what is true: when operations are in flight and none can get further, then some
`remove_device` call holds the available devices and waits for the used ones, and some other
operation holds the used devices and waits for the available ones. -/
theorem C34_only {σ} (env : Env σ) (p : Profile) (devices : List Device) (w : World σ)
    (ls : List (Label σ)) (s : Cfg σ) (h : Cfg.Reach env p (Cfg.init devices w) ls s)
    (hfl : ∃ t f, s.flights t = some f) (hst : ∀ lb s', Cfg.Step env p s lb s' → ¬ Advances lb) :
    ∃ t f i m k u g m' k', s.flights t = some f ∧ f.ev = .removeDevice i ∧
      f.code = .lock .used m k ∧ f.held .avail ≠ none ∧
      s.flights u = some g ∧ g.code = .lock .avail m' k' ∧ g.held .used ≠ none := by
  have hI := CInv.reach h
  have hQ := QInv.reach h
  have wait : ∀ t f, s.flights t = some f → f.waiting = true := by
    intro t f ht
    cases hw : f.waiting with
    | true => rfl
    | false =>
      obtain ⟨lb, s', st, ha⟩ := advance_of_not_waiting env p ht hw
      exact absurd ha (hst lb s' st)
  have wl : ∀ {t f l m k}, s.flights t = some f → f.code = .lock l m k → f.held l = none := by
    intro t f l m k ht hk
    obtain ⟨d, hwl, _⟩ := (hI.fl t f ht).prog
    rw [hk] at hwl; exact hwl.2.1
  -- the head of a queue is kept out by a holder
  have head : ∀ {t f l m k}, s.flights t = some f → f.code = .lock l m k →
      ∃ u g, s.flights u = some g ∧ g.held l ≠ none := by
    intro t f l m k ht hk
    have hmem : t ∈ s.queue l := (hQ.queue l t).2 ⟨f, m, k, ht, wait t f ht, hk⟩
    cases hq : s.queue l with
    | nil => rw [hq] at hmem; simp at hmem
    | cons a q =>
      obtain ⟨fa, ma, ka, ha, hwa, hka⟩ := (hQ.queue l a).1 (by rw [hq]; simp)
      refine Classical.byContradiction fun hno => ?_
      refine hst _ _ (.grant s a fa l ma ka q ha hka hwa hq (fun u g hh hu hg => ?_)) trivial
      exact absurd ⟨u, g, hu, by rw [hg]; simp⟩ hno
  -- every program waits for one of the locks
  have cases2 : ∀ t f, s.flights t = some f →
      (∃ m k, f.code = .lock .used m k) ∨ (∃ m k, f.code = .lock .avail m k) := by
    intro t f ht
    obtain ⟨l, m, k, hk⟩ := hQ.waits t f ht (wait t f ht)
    cases l with
    | used => exact Or.inl ⟨m, k, hk⟩
    | avail => exact Or.inr ⟨m, k, hk⟩
  have usedHolder : ∀ {t f m k}, s.flights t = some f → f.code = .lock .used m k →
      ∃ u g m' k', s.flights u = some g ∧ g.code = .lock .avail m' k' ∧ g.held .used ≠ none := by
    intro t f m k ht hk
    obtain ⟨u, g, hu, hg⟩ := head ht hk
    rcases cases2 u g hu with ⟨m', k', hk'⟩ | ⟨m', k', hk'⟩
    · exact absurd (wl hu hk') hg
    · exact ⟨u, g, m', k', hu, hk', hg⟩
  have availHolder : ∀ {t f m k}, s.flights t = some f → f.code = .lock .avail m k →
      ∃ u g i m' k', s.flights u = some g ∧ g.ev = .removeDevice i ∧ g.code = .lock .used m' k' ∧
        g.held .avail ≠ none := by
    intro t f m k ht hk
    obtain ⟨u, g, hu, hg⟩ := head ht hk
    rcases cases2 u g hu with ⟨m', k', hk'⟩ | ⟨m', k', hk'⟩
    · refine Classical.byContradiction fun hno => ?_
      have hord := hQ.ord u g hu (fun i e => hno ⟨u, g, i, m', k', hu, e, hk', hg⟩)
      rw [hk'] at hord
      exact hg (hord.1 rfl)
    · exact absurd (wl hu hk') hg
  obtain ⟨t0, f0, ht0⟩ := hfl
  obtain ⟨u, g, m', k', hu, hk', hg⟩ : ∃ u g m' k', s.flights u = some g ∧
      g.code = .lock .avail m' k' ∧ g.held .used ≠ none := by
    rcases cases2 t0 f0 ht0 with ⟨m, k, hk⟩ | ⟨m, k, hk⟩
    · exact usedHolder ht0 hk
    · obtain ⟨u, g, i, m', k', hu, _, hk', _⟩ := availHolder ht0 hk
      exact usedHolder hu hk'
  obtain ⟨t, f, i, m, k, ht, hev, hk, hf⟩ := availHolder hu hk'
  exact ⟨t, f, i, m, k, u, g, m', k', ht, hev, hk, hf, hu, hk', hg⟩

/-- C34 while no `remove_device` call is waiting for the used devices (what is missing: such calls,
see `C34_fails`): some pending operation can always get further. -/
theorem C34_progress_partial {σ} (env : Env σ) (p : Profile) (devices : List Device) (w : World σ)
    (ls : List (Label σ)) (s : Cfg σ) (h : Cfg.Reach env p (Cfg.init devices w) ls s)
    (hfl : ∃ t f, s.flights t = some f)
    (hno : ∀ t f i m k, s.flights t = some f → f.ev = .removeDevice i → f.code ≠ .lock .used m k) :
    ∃ lb s', Cfg.Step env p s lb s' ∧ Advances lb := by
  refine Classical.byContradiction fun hst => ?_
  obtain ⟨t, f, i, m, k, _, _, _, _, ht, hev, hk, _⟩ :=
    C34_only env p devices w ls s h hfl (fun lb s' st ha => hst ⟨lb, s', st, ha⟩)
  exact hno t f i m k ht hev hk

/-- Both locks are held for writing by programs that do not move: nobody else ever gets one, and
the tables do not change. -/
theorem frozen {σ} {env : Env σ} {p : Profile} {devices : List Device} {w : World σ}
    {ls : List (Label σ)} {s : Cfg σ} (h : Cfg.Reach env p (Cfg.init devices w) ls s)
    {K : Nat → Prop} (hK : ∀ l, ∃ t f, K t ∧ s.flights t = some f ∧ f.held l = some .w)
    {lb : Label σ} {s' : Cfg σ} (st : Cfg.Step env p s lb s') (hl : ∀ t, K t → prog lb ≠ some t) :
    (∀ t, K t → s'.flights t = s.flights t) ∧
    s'.shared.available = s.shared.available ∧ s'.shared.used = s.shared.used ∧
    (∀ t f l, ¬ K t → s.flights t = some f → f.held l = none) := by
  have hI := CInv.reach h
  have none : ∀ t f l, ¬ K t → s.flights t = some f → f.held l = none := by
    intro t f l hn ht
    obtain ⟨u, g, hu, hg, hw⟩ := hK l
    cases hm : f.held l with
    | none => rfl
    | some m =>
      have := hI.excl t u f g l m .w (by rintro rfl; exact hn hu) ht hg hm hw
      rw [compatible_w] at this; simp at this
  refine ⟨fun t ht => flights_other st (hl t ht), ?_, ?_, none⟩
  · cases st <;> first
      | rfl
      | (rename_i t f v k ht hk
         obtain ⟨d, hwl, _⟩ := (hI.fl t f ht).prog
         rw [hk] at hwl
         have hn : ¬ K t := fun e => hl t e rfl
         have hw := hwl.2.1
         rw [none t f .avail hn ht] at hw
         simp at hw)
  · cases st <;> first
      | rfl
      | (rename_i t f v k ht hk
         obtain ⟨d, hwl, _⟩ := (hI.fl t f ht).prog
         rw [hk] at hwl
         have hn : ¬ K t := fun e => hl t e rfl
         have hw := hwl.2.1
         rw [none t f .used hn ht] at hw
         simp at hw)

/-! ### Building executions -/

theorem Cfg.Reach.trans {σ} {env : Env σ} {p : Profile} {s0 s s' : Cfg σ} {ls ls' : List (Label σ)}
    (h : Cfg.Reach env p s0 ls s) (h' : Cfg.Reach env p s ls' s') : Cfg.Reach env p s0 (ls ++ ls') s' := by
  induction h' with
  | refl => rw [List.append_nil]; exact h
  | tail _ st ih => rw [← List.append_assoc]; exact .tail ih st

/-- `s'` can be reached, and compared to `s` only program `t` is different: it is now `f`. -/
def Moved {σ} (env : Env σ) (p : Profile) (s0 s s' : Cfg σ) (t : Nat) (f : Flight σ) : Prop :=
  (∃ ls, Cfg.Reach env p s0 ls s') ∧ s'.flights t = some f ∧
  (∀ u, u ≠ t → s'.flights u = s.flights u) ∧ s'.queue = s.queue ∧ s'.conns = s.conns

theorem go_lock {σ} {env : Env σ} {p : Profile} {s0 s : Cfg σ} {t : Nat} {f : Flight σ} {l : Lk}
    {m : Mode} {k : Task σ} (h : ∃ ls, Cfg.Reach env p s0 ls s) (ht : s.flights t = some f)
    (hk : f.code = .lock l m k) (hw : f.waiting = false) (hq : s.queue l = []) (hl : f.held l = none)
    (hc : ∀ u g, u ≠ t → s.flights u = some g → g.held l = none) :
    ∃ s', Moved env p s0 s s' t { f with code := k, held := upd f.held l (some m) } ∧
      s'.shared = s.shared := by
  obtain ⟨ls, h⟩ := h
  have h1 := Cfg.Reach.tail h (.request s t f l m k ht hk hw)
  have h2 := Cfg.Reach.tail h1 (.grant _ t { f with waiting := true } l m k [] (upd_self _ _ _) hk rfl
    (by simp [upd_self, hq]) (by
      intro u g hh hu hg
      by_cases e : u = t
      · subst e
        simp only [Cfg.put, upd_self, Option.some.injEq] at hu
        subst hu
        dsimp only at hg; rw [hl] at hg; simp at hg
      · simp only [Cfg.put, upd_ne _ _ e] at hu
        rw [hc u g e hu] at hg; simp at hg))
  refine ⟨_, ⟨⟨_, h2⟩, ?_, ?_, ?_, rfl⟩, rfl⟩
  · simp only [Cfg.put, upd_self]
    rw [← hw]
  · intro u hu
    simp only [Cfg.put, upd_ne _ _ hu]
  · funext l'
    by_cases e : l' = l
    · subst e; simp only [upd_self]; exact hq.symm
    · simp only [upd_ne _ _ e, Cfg.put]

theorem go_request {σ} {env : Env σ} {p : Profile} {s0 s : Cfg σ} {t : Nat} {f : Flight σ} {l : Lk}
    {m : Mode} {k : Task σ} (h : ∃ ls, Cfg.Reach env p s0 ls s) (ht : s.flights t = some f)
    (hk : f.code = .lock l m k) (hw : f.waiting = false) :
    ∃ s', (∃ ls, Cfg.Reach env p s0 ls s') ∧ s'.flights t = some { f with waiting := true } ∧
      (∀ u, u ≠ t → s'.flights u = s.flights u) ∧ s'.shared = s.shared := by
  obtain ⟨ls, h⟩ := h
  exact ⟨_, ⟨_, .tail h (.request s t f l m k ht hk hw)⟩, upd_self _ _ _, fun u hu => upd_ne _ _ hu, rfl⟩

theorem go_unlock {σ} {env : Env σ} {p : Profile} {s0 s : Cfg σ} {t : Nat} {f : Flight σ} {l : Lk}
    {k : Task σ} (h : ∃ ls, Cfg.Reach env p s0 ls s) (ht : s.flights t = some f)
    (hk : f.code = .unlock l k) :
    ∃ s', Moved env p s0 s s' t { f with code := k, held := upd f.held l none } ∧
      s'.shared = s.shared := by
  obtain ⟨ls, h⟩ := h
  exact ⟨_, ⟨⟨_, .tail h (.unlock s t f l k ht hk)⟩, upd_self _ _ _, fun u hu => upd_ne _ _ hu, rfl, rfl⟩, rfl⟩

theorem go_getAvail {σ} {env : Env σ} {p : Profile} {s0 s : Cfg σ} {t : Nat} {f : Flight σ}
    {k : List Device → Task σ} (h : ∃ ls, Cfg.Reach env p s0 ls s) (ht : s.flights t = some f)
    (hk : f.code = .getAvail k) :
    ∃ s', Moved env p s0 s s' t { f with code := k s.shared.available } ∧ s'.shared = s.shared := by
  obtain ⟨ls, h⟩ := h
  exact ⟨_, ⟨⟨_, .tail h (.getAvail s t f k ht hk)⟩, upd_self _ _ _, fun u hu => upd_ne _ _ hu, rfl, rfl⟩, rfl⟩

theorem go_getUsed {σ} {env : Env σ} {p : Profile} {s0 s : Cfg σ} {t : Nat} {f : Flight σ}
    {k : List (Bytes × Device) → Task σ} (h : ∃ ls, Cfg.Reach env p s0 ls s) (ht : s.flights t = some f)
    (hk : f.code = .getUsed k) :
    ∃ s', Moved env p s0 s s' t { f with code := k s.shared.used } ∧ s'.shared = s.shared := by
  obtain ⟨ls, h⟩ := h
  exact ⟨_, ⟨⟨_, .tail h (.getUsed s t f k ht hk)⟩, upd_self _ _ _, fun u hu => upd_ne _ _ hu, rfl, rfl⟩, rfl⟩

theorem go_putAvail {σ} {env : Env σ} {p : Profile} {s0 s : Cfg σ} {t : Nat} {f : Flight σ}
    {v : List Device} {k : Task σ} (h : ∃ ls, Cfg.Reach env p s0 ls s) (ht : s.flights t = some f)
    (hk : f.code = .putAvail v k) :
    ∃ s', Moved env p s0 s s' t { f with code := k } ∧ s'.shared = { s.shared with available := v } := by
  obtain ⟨ls, h⟩ := h
  exact ⟨_, ⟨⟨_, .tail h (.putAvail s t f v k ht hk)⟩, upd_self _ _ _, fun u hu => upd_ne _ _ hu, rfl, rfl⟩, rfl⟩

theorem go_putUsed {σ} {env : Env σ} {p : Profile} {s0 s : Cfg σ} {t : Nat} {f : Flight σ}
    {v : List (Bytes × Device)} {k : Task σ} (h : ∃ ls, Cfg.Reach env p s0 ls s) (ht : s.flights t = some f)
    (hk : f.code = .putUsed v k) :
    ∃ s', Moved env p s0 s s' t { f with code := k } ∧ s'.shared = { s.shared with used := v } := by
  obtain ⟨ls, h⟩ := h
  exact ⟨_, ⟨⟨_, .tail h (.putUsed s t f v k ht hk)⟩, upd_self _ _ _, fun u hu => upd_ne _ _ hu, rfl, rfl⟩, rfl⟩

theorem go_commit {σ} {env : Env σ} {p : Profile} {s0 s : Cfg σ} {t : Nat} {f : Flight σ}
    {k : World σ → Task σ} (h : ∃ ls, Cfg.Reach env p s0 ls s) (ht : s.flights t = some f)
    (hk : f.code = .commit id k) :
    ∃ s', Moved env p s0 s s' t { f with code := k s.shared.world, committed := true } ∧
      s'.shared = s.shared := by
  obtain ⟨ls, h⟩ := h
  exact ⟨_, ⟨⟨_, .tail h (.commit s t f id k ht hk)⟩, upd_self _ _ _, fun u hu => upd_ne _ _ hu, rfl, rfl⟩, rfl⟩

/-- A connection 0 on which an import request for `busid` is sent, the program handling it having
taken both locks (its first reading guard is already dropped). -/
theorem import_locked {σ} (env : Env σ) (p : Profile) (devices : List Device) (w : World σ)
    (input rest : Stream) (st : UInt32) (busid : Bytes)
    (hr : readCommand p input = .ok (.reqImport st busid, rest)) :
    ∃ s k, (∃ ls, Cfg.Reach env p (Cfg.init devices w) ls s) ∧
      s.flights 0 = some { ev := .iterate 0 .full, owner := some 0, code := .lock .avail .w k
                           held := fun l => if l = .used then some .w else none
                           waiting := false, committed := false } ∧
      (∀ t, t ≠ 0 → s.flights t = none) ∧ (∀ l, s.queue l = []) ∧
      s.shared = Shared.newSimulated devices w ∧
      s.conns = setConn (fun _ => none) 0 (Conn.new input) ∧
      importTask p (Conn.new input) rest (.reqImport st busid) busid .full
        = .lock .used .r (.unlock .used (.lock .used .w (.lock .avail .w k))) := by
  have r1 := Cfg.Reach.tail .refl (.connect (env := env) (p := p) (Cfg.init devices w) 0 input rfl)
  have r2 := Cfg.Reach.tail r1 (.iterate _ 0 0 .full (Conn.new input) rfl (by simp [setConn]) rfl
    (fun t f h => by simp [Cfg.init] at h))
  have hcode : iterTask env p (Conn.new input) .full
      = importTask p (Conn.new input) rest (.reqImport st busid) busid .full := by
    unfold iterTask
    rw [show (Conn.new input).input = input from rfl, hr]
  rw [hcode] at r2
  obtain ⟨s1, ⟨h1, hf1, ho1, hq1, hc1⟩, hs1⟩ := go_lock ⟨_, r2⟩ (t := 0) (l := .used) (m := .r)
    (put_same _ _ _) rfl rfl rfl rfl (fun u g hu hg => by
      rw [put_ne _ _ hu] at hg; simp [Cfg.init] at hg)
  obtain ⟨s2, ⟨h2, hf2, ho2, hq2, hc2⟩, hs2⟩ := go_unlock h1 hf1 rfl
  have none2 : ∀ u, u ≠ 0 → s2.flights u = none := fun u hu => by
    rw [ho2 u hu, ho1 u hu, put_ne _ _ hu]; rfl
  obtain ⟨s3, ⟨h3, hf3, ho3, hq3, hc3⟩, hs3⟩ := go_lock h2 hf2 rfl rfl (by rw [hq2, hq1]; rfl) rfl
    (fun u g hu hg => by rw [none2 u hu] at hg; simp at hg)
  refine ⟨s3, _, h3, ?_, ?_, ?_, ?_, ?_, rfl⟩
  · rw [hf3]
    congr 2
    funext l
    cases l <;> rfl
  · intro t ht; rw [ho3 t ht]; exact none2 t ht
  · intro l; rw [hq3, hq2, hq1]; rfl
  · rw [hs3, hs2, hs1]; rfl
  · rw [hc3, hc2, hc1]; rfl

/-- A program waiting for a lock that somebody holds for writing can only be dropped. -/
theorem blocked_step {σ} {env : Env σ} {p : Profile} {s s' : Cfg σ} {lb : Label σ}
    (st : Cfg.Step env p s lb s') {t : Nat} {f : Flight σ} {l : Lk} {m : Mode} {k : Task σ}
    (ht : s.flights t = some f) (hk : f.code = .lock l m k) (hw : f.waiting = true)
    (hb : ∃ u g, s.flights u = some g ∧ g.held l = some .w) (hp : prog lb = some t) :
    ∃ o, lb = .dropped t o := by
  obtain ⟨u, g, hu, hg⟩ := hb
  cases st <;> simp only [prog, Option.some.injEq, reduceCtorEq] at hp <;> subst hp
  case abandon => exact ⟨_, rfl⟩
  case request =>
    rename_i ht' _ hw'
    rw [ht] at ht'; cases ht'; rw [hw] at hw'; simp at hw'
  case grant =>
    rename_i ht' hk' _ _ hc
    rw [ht] at ht'; cases ht'
    rw [hk] at hk'; cases hk'
    have := hc u g .w hu hg
    rw [compatible_w] at this; simp at this
  all_goals
    first
      | (rename_i ht'; rw [ht] at ht'; simp at ht'; done)
      | (rename_i ht' hk'; rw [ht] at ht'; cases ht'; rw [hk] at hk'; simp at hk'; done)
      | (rename_i ht' _ _ _; rw [ht] at ht'; simp at ht'; done)

/-- The import of "1-1" as sent by a client. -/
def importStream (busid : Bytes) : Stream := ⟨wireCmd (.reqImport 0 busid), .unexpectedEof⟩

theorem importStream_read (p : Profile) (busid : Bytes) (h : busid.length = 32) :
    readCommand p (importStream busid) = .ok (.reqImport 0 busid, ⟨[], .unexpectedEof⟩) := by
  obtain ⟨bs, _, hb, hr⟩ := C01_roundtrip p (.reqImport 0 busid) [] .unexpectedEof ⟨h, fun _ => rfl⟩
  rw [hb, List.append_nil] at hr
  exact hr

/-- C34 fails, for all handlers and builds: a server with one device can get into a state in which a
client's import (program 0) and the application's `remove_device` of an unknown bus id (program 1)
wait for each other.  From then on, unless one of the two tasks is dropped, neither ever moves,
nobody else ever gets a lock, and the tables never change again. -/
theorem C34_fails {σ} (env : Env σ) (p : Profile) (w : World σ) :
    ∃ ls s f g, Cfg.Reach env p (Cfg.init [devA] w) ls s ∧
      s.flights 0 = some f ∧ f.ev = .iterate 0 .full ∧
      s.flights 1 = some g ∧ g.ev = .removeDevice devB.busId ∧
      (∀ t, t ≠ 0 → t ≠ 1 → s.flights t = none) ∧
      ∀ ls' s', Cfg.Reach env p s ls' s' → (∀ t o, .dropped t o ∈ ls' → t ≠ 0 ∧ t ≠ 1) →
        s'.flights 0 = some f ∧ s'.flights 1 = some g ∧
        s'.shared.available = s.shared.available ∧ s'.shared.used = s.shared.used ∧
        (∀ t h l, t ≠ 0 → t ≠ 1 → s'.flights t = some h → h.held l = none) ∧
        (∀ lb ∈ ls', prog lb ≠ some 0 ∧ prog lb ≠ some 1) := by
  obtain ⟨s1, k, ⟨l1, r1⟩, hf0, hno, hq, hs, hcn, _⟩ := import_locked env p [devA] w
    (importStream busA) _ _ _ (importStream_read p busA rfl)
  -- the removal starts, takes the available devices, looks, and asks for the used ones
  have r2 := Cfg.Reach.tail r1 (.remove s1 1 devB.busId (hno 1 (by decide)))
  obtain ⟨s2, ⟨h2, hf2, ho2, hq2, hc2⟩, hs2⟩ := go_lock ⟨_, r2⟩ (t := 1) (l := .avail) (m := .w)
    (put_same _ _ _) rfl rfl (hq .avail) rfl (fun u g hu hg => by
      rw [put_ne _ _ hu] at hg
      by_cases e : u = 0
      · subst e; rw [hf0] at hg; cases hg; rfl
      · rw [hno u e] at hg; simp at hg)
  obtain ⟨s3, ⟨h3, hf3, ho3, hq3, hc3⟩, hs3⟩ := go_getAvail h2 hf2 rfl
  have hav : s2.shared.available = [devA] := by rw [hs2]; show s1.shared.available = _; rw [hs]; rfl
  have htk : takeFirst devB.busId [devA] = none := by rfl
  rw [hav] at hf3
  simp only [htk] at hf3
  obtain ⟨s4, h4, hf4, ho4, hs4⟩ := go_request h3 hf3 rfl rfl
  have hf0' : s4.flights 0 = s1.flights 0 := by
    rw [ho4 0 (by decide), ho3 0 (by decide), ho2 0 (by decide), put_ne _ _ (by decide)]
  obtain ⟨s5, ⟨l5, r5⟩, hf5, ho5, hs5⟩ := go_request h4 (hf0'.trans hf0) rfl rfl
  have hf51 := (ho5 1 (by decide)).trans hf4
  -- s5 is the deadlock
  have none5 : ∀ t, t ≠ 0 → t ≠ 1 → s5.flights t = none := fun t h0 h1 => by
    rw [ho5 t h0, ho4 t h1, ho3 t h1, ho2 t h1, put_ne _ _ h1, hno t h0]
  refine ⟨l5, s5, _, _, r5, hf5, rfl, hf51, rfl, none5, ?_⟩
  intro ls' s' hr
  induction hr with
  | refl =>
    intro _
    refine ⟨hf5, hf51, rfl, rfl, ?_, by simp⟩
    intro t h l h0 h1 ht
    rw [none5 t h0 h1] at ht
    simp at ht
  | @tail ls1 sa lb sb ra st ih =>
    intro hd
    obtain ⟨i0, i1, ia, iu, _, il⟩ := ih (fun t o hm => hd t o (by simp [hm]))
    have hdl : ∀ t o, lb = .dropped t o → t ≠ 0 ∧ t ≠ 1 := fun t o e => hd t o (by simp [e])
    have hK : ∀ l, ∃ t f, (t = 0 ∨ t = 1) ∧ sa.flights t = some f ∧ f.held l = some .w := by
      intro l
      cases l with
      | used => exact ⟨0, _, Or.inl rfl, i0, rfl⟩
      | avail => exact ⟨1, _, Or.inr rfl, i1, rfl⟩
    have hl : ∀ t, (t = 0 ∨ t = 1) → prog lb ≠ some t := by
      rintro t (rfl | rfl) hp
      · obtain ⟨o, e⟩ := blocked_step st i0 rfl rfl ⟨1, _, i1, rfl⟩ hp
        exact (hdl 0 o e).1 rfl
      · obtain ⟨o, e⟩ := blocked_step st i1 rfl rfl ⟨0, _, i0, rfl⟩ hp
        exact (hdl 1 o e).2 rfl
    obtain ⟨z1, z2, z3, _⟩ := frozen (r5.trans ra) hK st hl
    have e0 := (z1 0 (Or.inl rfl)).trans i0
    have e1 := (z1 1 (Or.inr rfl)).trans i1
    refine ⟨e0, e1, z2.trans ia, z3.trans iu, ?_, ?_⟩
    · intro t h l h0 h1 ht
      have hI := CInv.reach (r5.trans (.tail ra st))
      cases hm : h.held l with
      | none => rfl
      | some m =>
        cases l with
        | used =>
          have := hI.excl t 0 h _ .used m .w h0 ht e0 hm rfl
          rw [compatible_w] at this; simp at this
        | avail =>
          have := hI.excl t 1 h _ .avail m .w h1 ht e1 hm rfl
          rw [compatible_w] at this; simp at this
    · intro lb' hm
      rw [List.mem_append, List.mem_singleton] at hm
      rcases hm with hm | rfl
      · exact il lb' hm
      · exact ⟨hl 0 (Or.inl rfl), hl 1 (Or.inr rfl)⟩

/-! ## C49 -/

/-- C49 fails, for all handlers and builds: connection 0 has imported "1-1" and its client does not
read the reply (program 0 does not move).  Connection 1 asks for "1-2", which is available.  In every
continuation, unless connection 1 itself is dropped, it gets no answer; nobody gets any lock. -/
theorem C49_fails {σ} (env : Env σ) (p : Profile) (w : World σ) :
    ∃ ls s f k, Cfg.Reach env p (Cfg.init [devA, devB] w) ls s ∧
      s.flights 0 = some f ∧ f.code = .send k ∧
      s.shared.available = [devB] ∧ s.conns 1 = some (Conn.new (importStream busB)) ∧
      ∀ ls' s', Cfg.Reach env p s ls' s' → (∀ lb ∈ ls', prog lb ≠ some 0) →
        (∀ t, .dropped t (some 1) ∉ ls') → .outside (.cancel 1) ∉ ls' →
        s'.conns 1 = some (Conn.new (importStream busB)) ∧
        (∀ t h l, t ≠ 0 → s'.flights t = some h → h.held l = none) := by
  obtain ⟨s1, k, r1, hf0, hno, hq, hs, hcn, hcode⟩ := import_locked env p [devA, devB] w
    (importStream busA) _ _ _ (importStream_read p busA rfl)
  obtain ⟨s2, ⟨h2, hf2, ho2, hq2, hc2⟩, hs2⟩ := go_lock r1 hf0 rfl rfl (hq .avail) rfl
    (fun u g hu hg => by rw [hno u hu] at hg; simp at hg)
  simp only [importTask, Task.lock.injEq, Task.unlock.injEq, true_and] at hcode
  subst hcode
  obtain ⟨s3, ⟨h3, hf3, ho3, hq3, hc3⟩, hs3⟩ := go_commit h2 hf2 rfl
  obtain ⟨s4, ⟨h4, hf4, ho4, hq4, hc4⟩, hs4⟩ := go_getAvail h3 hf3 rfl
  have hav : s3.shared.available = [devA, devB] := by rw [hs3, hs2, hs]; rfl
  have htk : takeFirst (busidCompare busA) [devA, devB] = some (devA, [devB]) := by rfl
  rw [hav] at hf4
  simp only [htk] at hf4
  obtain ⟨s5, ⟨h5, hf5, ho5, hq5, hc5⟩, hs5⟩ := go_putAvail h4 hf4 rfl
  obtain ⟨s6, ⟨h6, hf6, ho6, hq6, hc6⟩, hs6⟩ := go_getUsed h5 hf5 rfl
  obtain ⟨s7, ⟨⟨l7, r7⟩, hf7, ho7, hq7, hc7⟩, hs7⟩ := go_putUsed h6 hf6 rfl
  have none7 : ∀ u, u ≠ 0 → s7.flights u = none := fun u hu => by
    rw [ho7 u hu, ho6 u hu, ho5 u hu, ho4 u hu, ho3 u hu, ho2 u hu, hno u hu]
  have conn7 : s7.conns 1 = none := by rw [hc7, hc6, hc5, hc4, hc3, hc2, hcn]; rfl
  have r8 := Cfg.Reach.tail r7 (.connect s7 1 (importStream busB) conn7)
  refine ⟨_, _, _, _, r8, hf7, rfl, ?_, by simp [setConn], ?_⟩
  · show s7.shared.available = _
    rw [hs7, hs6, hs5]
  have hread := importStream_read p busB rfl
  have hitc : ∀ w', iterTask env p (Conn.new (importStream busB)) w' = importTask p
      (Conn.new (importStream busB)) ⟨[], .unexpectedEof⟩ (.reqImport 0 busB) busB w' := by
    intro w'
    unfold iterTask
    rw [show (Conn.new (importStream busB)).input = importStream busB from rfl, hread]
  intro ls' s' hr
  suffices H : (∀ lb ∈ ls', prog lb ≠ some 0) → (∀ t, .dropped t (some 1) ∉ ls') →
      .outside (.cancel 1) ∉ ls' →
      s'.flights 0 = s7.flights 0 ∧ s'.conns 1 = some (Conn.new (importStream busB)) ∧
      (∀ t h, s'.flights t = some h → h.owner = some 1 →
        ∃ w', h.code = iterTask env p (Conn.new (importStream busB)) w') by
    intro a1 a2 a3
    obtain ⟨e0, e1, _⟩ := H a1 a2 a3
    refine ⟨e1, fun t h l h0 ht => ?_⟩
    have hI := CInv.reach (r8.trans hr)
    rw [hf7] at e0
    cases hm : h.held l with
    | none => rfl
    | some m =>
      have := hI.excl t 0 h _ l m .w h0 ht e0 hm (by cases l <;> rfl)
      rw [compatible_w] at this; simp at this
  induction hr with
  | refl =>
    intro _ _ _
    refine ⟨rfl, by simp [setConn], fun t h ht ho => ?_⟩
    by_cases e : t = 0
    · subst e
      rw [hf7] at ht; cases ht
      simp at ho
    · rw [show s7.flights t = none from none7 t e] at ht; simp at ht
  | @tail ls1 sa lb sb ra st ih =>
    intro a1 a2 a3
    obtain ⟨e0, e1, e2⟩ := ih (fun lb' hm => a1 lb' (by simp [hm])) (fun t hm => a2 t (by simp [hm]))
      (fun hm => a3 (by simp [hm]))
    have hlb : prog lb ≠ some 0 := a1 lb (by simp)
    have hdr : ∀ t, lb ≠ .dropped t (some 1) := fun t e => a2 t (by simp [e])
    have hca : lb ≠ .outside (.cancel 1) := fun e => a3 (by simp [e])
    have hI := CInv.reach (r8.trans ra)
    have other : sb.flights 0 = s7.flights 0 := (flights_other st hlb).trans e0
    have held0 : ∀ l, ∃ g, sa.flights 0 = some g ∧ g.held l = some .w := by
      intro l; rw [e0, hf7]; exact ⟨_, rfl, by cases l <;> rfl⟩
    -- a step of a program of connection 1 is not possible, except asking for the lock
    have locked : ∀ {t h}, sa.flights t = some h → h.owner = some 1 →
        ∃ k, h.code = .lock .used .r k := by
      intro t h ht ho
      obtain ⟨w', e⟩ := e2 t h ht ho
      exact ⟨_, e.trans (hitc w')⟩
    -- how a new set of programs relates to the old one
    have keep : ∀ {t : Nat} {o : Option (Flight σ)}, sb.flights = upd sa.flights t o →
        (∀ h, o = some h → h.owner = some 1 →
          ∃ w', h.code = iterTask env p (Conn.new (importStream busB)) w') →
        ∀ t h, sb.flights t = some h → h.owner = some 1 →
          ∃ w', h.code = iterTask env p (Conn.new (importStream busB)) w' := by
      intro t o hfl ho u h hu hown
      rcases flights_upd hfl hu with ⟨_, e⟩ | ⟨_, hu'⟩
      · exact ho h e hown
      · exact e2 u h hu' hown
    refine ⟨other, ?_⟩
    cases st with
    | connect c input hc =>
      refine ⟨?_, e2⟩
      have : (1 : Nat) ≠ c := by rintro rfl; rw [e1] at hc; simp at hc
      simp only [setConn_ne this]; exact e1
    | user f => exact ⟨e1, e2⟩
    | cancel c x hc hr hi =>
      refine ⟨?_, e2⟩
      have : (1 : Nat) ≠ c := by rintro rfl; exact hca rfl
      simp only [setConn_ne this]; exact e1
    | iterate t c w' x ht hc hr hi =>
      refine ⟨e1, keep rfl (fun h e ho => ?_)⟩
      cases e
      simp only [Flight.start, Option.some.injEq] at ho
      subst ho
      rw [e1] at hc; cases hc
      exact ⟨w', rfl⟩
    | add t d ht => exact ⟨e1, keep rfl (fun h e ho => by cases e; simp [Flight.start] at ho)⟩
    | remove t i ht => exact ⟨e1, keep rfl (fun h e ho => by cases e; simp [Flight.start] at ho)⟩
    | request t f l m k ht hk hw =>
      exact ⟨e1, keep rfl (fun h e ho => by cases e; exact e2 t f ht ho)⟩
    | grant t f l m k q ht hk hw hq hc =>
      obtain ⟨g, hg, hgw⟩ := held0 l
      have := hc 0 g .w hg hgw
      rw [compatible_w] at this; simp at this
    | unlock t f l k ht hk =>
      refine ⟨e1, keep rfl (fun h e ho => ?_)⟩
      cases e; obtain ⟨k', hk'⟩ := locked ht ho; rw [hk] at hk'; simp at hk'
    | getUsed t f k ht hk =>
      refine ⟨e1, keep rfl (fun h e ho => ?_)⟩
      cases e; obtain ⟨k', hk'⟩ := locked ht ho; rw [hk] at hk'; simp at hk'
    | getAvail t f k ht hk =>
      refine ⟨e1, keep rfl (fun h e ho => ?_)⟩
      cases e; obtain ⟨k', hk'⟩ := locked ht ho; rw [hk] at hk'; simp at hk'
    | putUsed t f v k ht hk =>
      refine ⟨e1, keep rfl (fun h e ho => ?_)⟩
      cases e; obtain ⟨k', hk'⟩ := locked ht ho; rw [hk] at hk'; simp at hk'
    | putAvail t f v k ht hk =>
      refine ⟨e1, keep rfl (fun h e ho => ?_)⟩
      cases e; obtain ⟨k', hk'⟩ := locked ht ho; rw [hk] at hk'; simp at hk'
    | commit t f g k ht hk =>
      refine ⟨e1, keep rfl (fun h e ho => ?_)⟩
      cases e; obtain ⟨k', hk'⟩ := locked ht ho; rw [hk] at hk'; simp at hk'
    | send t f k ht hk =>
      refine ⟨e1, keep rfl (fun h e ho => ?_)⟩
      cases e; obtain ⟨k', hk'⟩ := locked ht ho; rw [hk] at hk'; simp at hk'
    | finish t f x ht hk =>
      have hown : f.owner ≠ some 1 := fun ho => by
        obtain ⟨k', hk'⟩ := locked ht ho; rw [hk] at hk'; simp at hk'
      refine ⟨?_, keep rfl (fun h e => by simp at e)⟩
      dsimp only [finished, Cfg.put]
      cases ho : f.owner with
      | none => exact e1
      | some c' =>
        cases x with
        | call r => exact e1
        | conn y => exact (setConn_ne (fun e => hown (by rw [ho, e]))).trans e1
    | abandon t f ht hc =>
      have hown : f.owner ≠ some 1 := fun ho => hdr t (by rw [ho])
      refine ⟨?_, keep rfl (fun h e => by simp at e)⟩
      dsimp only [dropped]
      cases ho : f.owner with
      | none => exact e1
      | some c' =>
        dsimp only
        cases sa.conns c' with
        | some x => exact (setConn_ne (fun e => hown (by rw [ho, e]))).trans e1
        | none => exact e1

/-- C49 for clients that do not read the reply to a listing, a submit or an unlink (what is missing:
imports, see `C49_fails`): while all other programs in flight are stuck sending such replies, the
first program in the queue gets its lock if it only reads (as all submits, unlinks and listings of
other connections do). -/
theorem C49_readers_partial {σ} (env : Env σ) (p : Profile) (devices : List Device) (w : World σ)
    (ls : List (Label σ)) (s : Cfg σ) (h : Cfg.Reach env p (Cfg.init devices w) ls s)
    (t : Nat) (f : Flight σ) (l : Lk) (k : Task σ) (q : List Nat)
    (ht : s.flights t = some f) (hk : f.code = .lock l .r k) (hq : s.queue l = t :: q)
    (hothers : ∀ u g, u ≠ t → s.flights u = some g → (∃ k', g.code = .send k') ∧
      ∃ c x, g.owner = some c ∧ s.conns c = some x ∧
        ∀ st b rest, readCommand p x.input ≠ .ok (.reqImport st b, rest)) :
    ∃ s', Cfg.Step env p s (.inner t) s' ∧
      s'.flights t = some { f with code := k, waiting := false, held := upd f.held l (some .r) } := by
  have hI := CInv.reach h
  have hQ := QInv.reach h
  have hw : f.waiting = true := by
    obtain ⟨f', m, k', h1, h2, _⟩ := (hQ.queue l t).1 (by rw [hq]; simp)
    rw [ht] at h1; cases h1; exact h2
  refine ⟨_, .grant s t f l .r k q ht hk hw hq (fun u g m hu hg => ?_), upd_self _ _ _⟩
  by_cases e : u = t
  · subst e
    rw [ht] at hu; cases hu
    obtain ⟨d, hwl, _⟩ := (hI.fl u f ht).prog
    rw [hk] at hwl
    rw [hwl.2.1] at hg; simp at hg
  · obtain ⟨⟨k', hk'⟩, c, x, ho, hx, hn⟩ := hothers u g e hu
    have hs := shares_reach h u g c x hu ho hx hn
    rw [hk'] at hs
    cases m with
    | r => rfl
    | w => exact absurd hg (hs.1 l)

/-! ## Two concurrent additions -/

theorem go_start_add {σ} {env : Env σ} {p : Profile} {s0 s : Cfg σ} {t : Nat} {d : Device}
    (h : ∃ ls, Cfg.Reach env p s0 ls s) (ht : s.flights t = none) :
    ∃ s', Moved env p s0 s s' t (Flight.start (.addDevice d) none (addTask d)) ∧ s'.shared = s.shared := by
  obtain ⟨ls, h⟩ := h
  exact ⟨_, ⟨⟨_, .tail h (.add s t d ht)⟩, upd_self _ _ _, fun u hu => upd_ne _ _ hu, rfl, rfl⟩, rfl⟩

theorem go_end {σ} {env : Env σ} {p : Profile} {s0 s : Cfg σ} {t : Nat} {f : Flight σ} {r : Outcome Unit}
    (h : ∃ ls, Cfg.Reach env p s0 ls s) (ht : s.flights t = some f) (hk : f.code = .done (.call r)) :
    ∃ s', (∃ ls, Cfg.Reach env p s0 ls s') ∧ s'.flights t = none ∧
      (∀ u, u ≠ t → s'.flights u = s.flights u) ∧ s'.queue = s.queue ∧ s'.shared = s.shared := by
  obtain ⟨ls, h⟩ := h
  exact ⟨_, ⟨_, .tail h (.finish s t f (.call r) ht hk)⟩, upd_self _ _ _, fun u hu => upd_ne _ _ hu, rfl, rfl⟩

theorem go_add {σ} {env : Env σ} {p : Profile} {s0 s : Cfg σ} {t : Nat} {d : Device}
    (h : ∃ ls, Cfg.Reach env p s0 ls s)
    (ht : s.flights t = some (Flight.start (.addDevice d) none (addTask d))) (hq : ∀ l, s.queue l = [])
    (hc : ∀ u g, u ≠ t → s.flights u = some g → g.held .avail = none) :
    ∃ s', (∃ ls, Cfg.Reach env p s0 ls s') ∧ s'.flights t = none ∧
      (∀ u, u ≠ t → s'.flights u = s.flights u) ∧ (∀ l, s'.queue l = []) ∧
      s'.shared.available = s.shared.available ++ [d] := by
  obtain ⟨s1, ⟨h1, f1, o1, q1, c1⟩, e1⟩ := go_lock h ht rfl rfl (hq .avail) rfl hc
  obtain ⟨s2, ⟨h2, f2, o2, q2, c2⟩, e2⟩ := go_commit h1 f1 rfl
  obtain ⟨s3, ⟨h3, f3, o3, q3, c3⟩, e3⟩ := go_getAvail h2 f2 rfl
  obtain ⟨s4, ⟨h4, f4, o4, q4, c4⟩, e4⟩ := go_putAvail h3 f3 rfl
  obtain ⟨s5, ⟨h5, f5, o5, q5, c5⟩, e5⟩ := go_unlock h4 f4 rfl
  obtain ⟨s6, h6, f6, o6, q6, e6⟩ := go_end h5 f5 rfl
  refine ⟨s6, h6, f6, fun u hu => ?_, fun l => ?_, ?_⟩
  · rw [o6 u hu, o5 u hu, o4 u hu, o3 u hu, o2 u hu, o1 u hu]
  · rw [q6, q5, q4, q3, q2, q1]; exact hq l
  · rw [e6, e5, e4, e2, e1]

/-- Executions as in `C35_atomic` exist: two additions overlap and end; nothing is in flight. -/
example : ∃ ls s, Cfg.Reach Samples.env dev (Cfg.init [] Samples.world) ls s ∧
    (∀ t, s.flights t = none) ∧ s.shared.available = [devB, devA] := by
  obtain ⟨s1, ⟨h1, f1, o1, q1, c1⟩, e1⟩ := go_start_add (t := 0) (d := devA) ⟨_, .refl⟩
    (s0 := Cfg.init [] Samples.world) (env := Samples.env) (p := dev) rfl
  obtain ⟨s2, ⟨h2, f2, o2, q2, c2⟩, e2⟩ := go_start_add (t := 1) (d := devB) h1
    ((o1 1 (by decide)).trans rfl)
  obtain ⟨s3, h3, f3, o3, q3, e3⟩ := go_add h2 f2 (fun l => by rw [q2, q1]; rfl) (fun u g hu hg => by
    by_cases e : u = 0
    · subst e; rw [o2 0 (by decide), f1] at hg; cases hg; rfl
    · rw [o2 u hu, o1 u e] at hg; simp [Cfg.init] at hg)
  have f0 : s3.flights 0 = some (Flight.start (.addDevice devA) none (addTask devA)) := by
    rw [o3 0 (by decide), o2 0 (by decide), f1]
  obtain ⟨s4, ⟨ls, h4⟩, f4, o4, q4, e4⟩ := go_add h3 f0 q3 (fun u g hu hg => by
    by_cases e : u = 1
    · subst e; rw [f3] at hg; simp at hg
    · rw [o3 u e, o2 u e, o1 u hu] at hg; simp [Cfg.init] at hg)
  refine ⟨ls, s4, h4, fun t => ?_, ?_⟩
  · by_cases e : t = 0
    · subst e; exact f4
    · rw [o4 t e]
      by_cases e' : t = 1
      · subst e'; exact f3
      · rw [o3 t e', o2 t e', o1 t e]; rfl
  · rw [e4, e3, e2, e1]; rfl

end Usbip
