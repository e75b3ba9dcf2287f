import Verif.Lemmas.Fair
/-! Helper lemmas: infinite runs of the programs in flight, with steps in between that do not concern them. -/

namespace Usbip
open Spec

theorem QInv.congr {σ} {s a : Cfg σ} (h : QInv s) (hf : a.flights = s.flights) (hq : a.queue = s.queue) : QInv a :=
  ⟨by rw [hf, hq]; exact h.queue, by rw [hq]; exact h.nodup, by rw [hf]; exact h.waits, by rw [hf]; exact h.ord⟩

/-- A step, as far as the programs in flight and the queues are concerned. -/
def FlightStep {σ} (env : Env σ) (p : Profile) (s : Cfg σ) (lb : Label σ) (s' : Cfg σ) : Prop :=
  ∃ a b, Cfg.Step env p a lb b ∧ a.flights = s.flights ∧ a.queue = s.queue ∧ b.flights = s'.flights ∧
    b.queue = s'.queue

/-- An infinite run: in each step a step of the programs takes place, or nothing that concerns them. -/
structure Run {σ} (env : Env σ) (p : Profile) where
  state : Nat → Cfg σ
  label : Nat → Option (Label σ)
  q : ∀ n, QInv (state n)
  own : ∀ n t f l m k, (state n).flights t = some f → f.code = .lock l m k → f.held l = none
  within : ∀ n t f, (state n).flights t = some f → f.Within 26
  finite : ∀ n, ∃ N, ∀ t, N ≤ t → (state n).flights t = none
  stays : ∀ n, label n = none → (state (n + 1)).flights = (state n).flights ∧ (state (n + 1)).queue = (state n).queue
  steps : ∀ n lb, label n = some lb → FlightStep env p (state n) lb (state (n + 1))

section
variable {σ : Type} {env : Env σ} {p : Profile} (e : Run (σ := σ) env p)

/-- The step at time `n` is one of program `t`. -/
def Run.Of (t n : Nat) : Prop := ∃ lb, e.label n = some lb ∧ prog lb = some t

/-- Program `t` makes a step at time `n` or later. -/
def Run.Moves (t n : Nat) : Prop := ∃ m, n ≤ m ∧ e.Of t m

theorem Run.other {t n : Nat} (h : ¬ e.Of t n) : (e.state (n + 1)).flights t = (e.state n).flights t := by
  cases hl : e.label n with
  | none => rw [(e.stays n hl).1]
  | some lb =>
    obtain ⟨a, b, st, ha, _, hb, _⟩ := e.steps n lb hl
    rw [← ha, ← hb]
    exact flights_other st (fun hp => h ⟨lb, hl, hp⟩)

theorem Run.still {t n m : Nat} (hm : n ≤ m) (h : ∀ j, n ≤ j → j < m → ¬ e.Of t j) :
    (e.state m).flights t = (e.state n).flights t := by
  obtain ⟨k, rfl⟩ := Nat.exists_eq_add_of_le hm
  induction k with
  | zero => rfl
  | succ k ih =>
    rw [← ih (by omega) (fun j h1 h2 => h j h1 (by omega))]
    exact e.other (h (n + k) (by omega) (by omega))

theorem Run.first {t n : Nat} (h : e.Moves t n) :
    ∃ m, n ≤ m ∧ e.Of t m ∧ (e.state m).flights t = (e.state n).flights t := by
  obtain ⟨m, hm, hp⟩ := h
  induction m using Nat.strongRecOn with
  | ind m ih =>
    by_cases h : ∃ j, n ≤ j ∧ j < m ∧ e.Of t j
    · obtain ⟨j, h1, h2, h3⟩ := h
      exact ih j h2 h1 h3
    · exact ⟨m, hm, hp, e.still hm (fun j h1 h2 h3 => h ⟨j, h1, h2, h3⟩)⟩

theorem Run.own_step_within {t n b : Nat} {f : Flight σ} (hf : (e.state n).flights t = some f) (hp : e.Of t n)
    (hb : f.Within b) : 0 < b ∧ ∀ g, (e.state (n + 1)).flights t = some g → g.Within (b - 1) := by
  obtain ⟨lb, hl, hp⟩ := hp
  obtain ⟨s, s', st, ha, hq, hb', _⟩ := e.steps n lb hl
  rw [← ha] at hf
  rw [← hb']
  exact Usbip.own_step_within ((e.q n).congr ha hq) st hf hp hb

theorem Run.queue_step {n t : Nat} {l : Lk} {pre post : List Nat} (hq : (e.state n).queue l = pre ++ t :: post)
    (ht : ¬ e.Of t n) :
    ∃ pre' post', (e.state (n + 1)).queue l = pre' ++ t :: post' ∧ pre'.Sublist pre ∧
      (∀ u f g, (e.state n).flights u = some f → f.held l = none → (e.state (n + 1)).flights u = some g →
        g.held l ≠ none → pre = u :: pre') ∧ (∀ u, e.Of u n → u ∉ pre') := by
  cases hl : e.label n with
  | none =>
    obtain ⟨h1, h2⟩ := e.stays n hl
    refine ⟨pre, post, by rw [h2, hq], .refl _, fun u f g hf hn hg hh => ?_, fun u ⟨lb, hu, _⟩ => ?_⟩
    · rw [h1, hf] at hg; cases hg; exact absurd hn hh
    · rw [hl] at hu; simp at hu
  | some lb =>
    obtain ⟨s, s', st, ha, hqa, hb, hqb⟩ := e.steps n lb hl
    obtain ⟨pre', post', h1, h2, h3, h4⟩ := Usbip.queue_step ((e.q n).congr ha hqa) st (by rw [hqa]; exact hq)
      (fun hp => ht ⟨lb, hl, hp⟩)
    rw [ha, hb] at h3
    rw [hqb] at h1
    refine ⟨pre', post', h1, h2, h3, fun u ⟨lb', hu, hp⟩ => ?_⟩
    rw [hl] at hu; cases hu
    exact h4 u hp

/-- A program that was not there holds nothing at first. -/
theorem Run.fresh {n u : Nat} {g : Flight σ} (hf : (e.state n).flights u = none)
    (hg : (e.state (n + 1)).flights u = some g) (l : Lk) : g.held l = none := by
  cases hl : e.label n with
  | none => rw [(e.stays n hl).1, hf] at hg; simp at hg
  | some lb =>
    obtain ⟨s, s', st, ha, _, hb, _⟩ := e.steps n lb hl
    rw [← hb] at hg
    rcases flight_step st hg with ⟨f, hf', _⟩ | ⟨_, _, ⟨c, w, x, rfl, _⟩ | ⟨d, rfl⟩ | ⟨i, rfl⟩⟩
    · rw [ha, hf] at hf'; simp at hf'
    · rfl
    · rfl
    · rfl

/-- What a run must do: programs that need no lock move, and programs that can have their lock get it. -/
structure Run.Works : Prop where
  free : ∀ n t f, (e.state n).flights t = some f → f.waiting = false → e.Moves t n
  grant : ∀ n t l, (∀ m, n ≤ m → (∃ q, (e.state m).queue l = t :: q) ∧
    ∀ u, Free (e.state m) u l) → e.Moves t n

theorem Run.releases {l : Lk}
    (H : ∀ n u f, (e.state n).flights u = some f → f.held l ≠ none → e.Moves u n) :
    ∀ b n u f, (e.state n).flights u = some f → f.Within b → ∃ m, n ≤ m ∧ Free (e.state m) u l := by
  intro b
  induction b with
  | zero =>
    intro n u f hf hb
    obtain ⟨k, _, hk⟩ := hb
    split at hk <;> omega
  | succ b ih =>
    intro n u f hf hb
    by_cases hh : f.held l = none
    · exact ⟨n, Nat.le_refl n, fun g hg => by rw [hf] at hg; cases hg; exact hh⟩
    · obtain ⟨m, hm, hp, hs⟩ := e.first (H n u f hf hh)
      obtain ⟨_, hg⟩ := e.own_step_within (hs.trans hf) hp hb
      cases hn : (e.state (m + 1)).flights u with
      | none => exact ⟨m + 1, by omega, fun g hg => by rw [hn] at hg; simp at hg⟩
      | some g =>
        obtain ⟨m', hm', hfree⟩ := ih (m + 1) u g hn (hg g hn)
        exact ⟨m', by omega, hfree⟩

theorem Run.head_moves (hw : e.Works) {l : Lk}
    (H : ∀ n u f, (e.state n).flights u = some f → f.held l ≠ none → e.Moves u n)
    {n t : Nat} {q : List Nat} (hq : (e.state n).queue l = t :: q) : e.Moves t n := by
  refine Classical.byContradiction fun hno => ?_
  have hnm : ∀ m, n ≤ m → ¬ e.Of t m := fun m hm hp => hno ⟨m, hm, hp⟩
  have hhead : ∀ k, ∃ q', (e.state (n + k)).queue l = t :: q' := by
    intro k
    induction k with
    | zero => exact ⟨q, hq⟩
    | succ k ih =>
      obtain ⟨q', hq'⟩ := ih
      obtain ⟨pre, post, h1, h2, _⟩ := e.queue_step (n := n + k) (pre := []) hq' (hnm (n + k) (by omega))
      rw [List.sublist_nil.1 h2] at h1
      exact ⟨post, h1⟩
  have hkeep1 : ∀ k u, Free (e.state (n + k)) u l → Free (e.state (n + k + 1)) u l := by
    intro k u hfree g hg
    obtain ⟨q', hq'⟩ := hhead k
    obtain ⟨pre, post, _, _, h3, _⟩ := e.queue_step (n := n + k) (pre := []) hq' (hnm (n + k) (by omega))
    cases hf : (e.state (n + k)).flights u with
    | none => exact e.fresh hf hg l
    | some f =>
      refine Classical.byContradiction fun hh => ?_
      have := h3 u f g hf (hfree f hf) hg hh
      simp at this
  have hkeep : ∀ k j u, Free (e.state (n + k)) u l → Free (e.state (n + (k + j))) u l := by
    intro k j u h
    induction j with
    | zero => exact h
    | succ j ih => exact hkeep1 (k + j) u ih
  obtain ⟨N, hN⟩ := e.finite n
  have hall : ∀ K, ∃ k, ∀ u, u < K → Free (e.state (n + k)) u l := by
    intro K
    induction K with
    | zero => exact ⟨0, fun u hu => by omega⟩
    | succ K ih =>
      obtain ⟨k, hk⟩ := ih
      obtain ⟨j, hj⟩ : ∃ j, Free (e.state (n + (k + j))) K l := by
        cases hf : (e.state (n + k)).flights K with
        | none => exact ⟨0, fun g hg => by rw [Nat.add_zero, hf] at hg; simp at hg⟩
        | some f =>
          obtain ⟨m, hm, hfree⟩ := e.releases H 26 (n + k) K f hf (e.within _ K f hf)
          refine ⟨m - (n + k), ?_⟩
          rw [show n + (k + (m - (n + k))) = m by omega]; exact hfree
      refine ⟨k + j, fun u hu => ?_⟩
      rcases Nat.lt_succ_iff_lt_or_eq.1 hu with hu | rfl
      · exact hkeep k j u (hk u hu)
      · exact hj
  obtain ⟨k, hk⟩ := hall N
  have hnone : ∀ j u, Free (e.state (n + (k + j))) u l := by
    intro j u
    refine hkeep k j u ?_
    by_cases hu : u < N
    · exact hk u hu
    · have : Free (e.state (n + 0)) u l := fun f hf => by
        rw [Nat.add_zero, hN u (by omega)] at hf; simp at hf
      have := hkeep 0 k u this
      rwa [Nat.zero_add] at this
  obtain ⟨m, hm, h⟩ := hw.grant (n + k) t l (fun m hm => by
    obtain ⟨j, rfl⟩ := Nat.exists_eq_add_of_le hm
    rw [Nat.add_assoc]
    exact ⟨hhead (k + j), hnone j⟩)
  exact hnm m (by omega) h

theorem Run.waiter_moves {l : Lk}
    (H : ∀ n t q, (e.state n).queue l = t :: q → e.Moves t n) :
    ∀ b n t pre post, pre.length ≤ b → (e.state n).queue l = pre ++ t :: post → e.Moves t n := by
  intro b
  induction b with
  | zero =>
    intro n t pre post hb hq
    have : pre = [] := List.length_eq_zero_iff.1 (by omega)
    subst this
    exact H n t _ hq
  | succ b ih =>
    intro n t pre post hb hq
    cases pre with
    | nil => exact H n t _ hq
    | cons a pre =>
      refine Classical.byContradiction fun hno => ?_
      have hnm : ∀ m, n ≤ m → ¬ e.Of t m := fun m hm hp => hno ⟨m, hm, hp⟩
      obtain ⟨m, hm, hp⟩ := H n a _ hq
      have hev : ∀ k, ∃ pre' post', (e.state (n + k)).queue l = pre' ++ t :: post' ∧
          pre'.Sublist (a :: pre) := by
        intro k
        induction k with
        | zero => exact ⟨_, _, hq, List.Sublist.refl _⟩
        | succ k ihk =>
          obtain ⟨pre', post', h1, h2⟩ := ihk
          obtain ⟨pre2, post2, h3, h4, _⟩ := e.queue_step h1 (hnm (n + k) (by omega))
          exact ⟨pre2, post2, h3, h4.trans h2⟩
      obtain ⟨k, rfl⟩ := Nat.exists_eq_add_of_le hm
      obtain ⟨pre', post', h1, h2⟩ := hev k
      obtain ⟨pre2, post2, h3, h4, _, h5⟩ := e.queue_step h1 (hnm (n + k) (by omega))
      have hlt : pre2.length ≤ b := by
        have h6 := h4.trans h2
        have h7 : pre2.length ≠ (a :: pre).length := fun he => by
          have := h6.eq_of_length he
          exact h5 a hp (by rw [this]; simp)
        have h8 := h6.length_le
        simp only [List.length_cons] at hb h7 h8
        omega
      obtain ⟨m', hm', hp'⟩ := ih (n + k + 1) t pre2 post2 hlt h3
      exact hnm m' (by omega) hp'

/-- If removals never wait for the used devices, everybody keeps moving. -/
theorem Run.all_move (hw : e.Works)
    (hno : ∀ n t f i m k, (e.state n).flights t = some f → f.ev = .removeDevice i → f.code ≠ .lock .used m k) :
    ∀ n t f, (e.state n).flights t = some f → e.Moves t n := by
  have inq : ∀ n t f l m k, (e.state n).flights t = some f → f.waiting = true → f.code = .lock l m k →
      ∃ pre post, (e.state n).queue l = pre ++ t :: post := by
    intro n t f l m k hf hw hk
    exact List.append_of_mem (((e.q n).queue l t).2 ⟨f, m, k, hf, hw, hk⟩)
  have hAvail : ∀ n u f, (e.state n).flights u = some f → f.held .avail ≠ none → e.Moves u n := by
    intro n u f hf hh
    refine hw.free n u f hf ?_
    cases hw : f.waiting with
    | false => rfl
    | true =>
      obtain ⟨l, m, k, hk⟩ := (e.q n).waits u f hf hw
      cases l with
      | avail => exact absurd (e.own n u f _ m k hf hk) hh
      | used =>
        have := (e.q n).ord u f hf (fun i hi => hno n u f i m k hf hi hk)
        rw [hk] at this
        exact absurd (this.1 rfl) hh
  have hUsed : ∀ n u f, (e.state n).flights u = some f → f.held .used ≠ none → e.Moves u n := by
    intro n u f hf hh
    cases hwt : f.waiting with
    | false => exact hw.free n u f hf hwt
    | true =>
      obtain ⟨l, m, k, hk⟩ := (e.q n).waits u f hf hwt
      cases l with
      | used => exact absurd (e.own n u f _ m k hf hk) hh
      | avail =>
        obtain ⟨pre, post, hq⟩ := inq n u f _ m k hf hwt hk
        exact e.waiter_moves (fun n t q => e.head_moves hw hAvail) _ n u pre post (Nat.le_refl _) hq
  intro n t f hf
  cases hwt : f.waiting with
  | false => exact hw.free n t f hf hwt
  | true =>
    obtain ⟨l, m, k, hk⟩ := (e.q n).waits t f hf hwt
    obtain ⟨pre, post, hq⟩ := inq n t f _ m k hf hwt hk
    cases l with
    | used => exact e.waiter_moves (fun n t q => e.head_moves hw hUsed) _ n t pre post (Nat.le_refl _) hq
    | avail => exact e.waiter_moves (fun n t q => e.head_moves hw hAvail) _ n t pre post (Nat.le_refl _) hq

/-- Every program ends, or is dropped. -/
theorem Run.completes {H : ∀ n t f, (e.state n).flights t = some f → e.Moves t n} :
    ∀ b n t f, (e.state n).flights t = some f → f.Within b →
      ∃ m g, n ≤ m ∧ (e.label m = some (.ended t) ∨ ∃ o, e.label m = some (.dropped t o)) ∧
        (e.state m).flights t = some g ∧ g.owner = f.owner ∧ g.ev = f.ev := by
  intro b
  induction b with
  | zero =>
    intro n u f hf hb
    obtain ⟨k, _, hk⟩ := hb
    split at hk <;> omega
  | succ b ih =>
    intro n t f hf hb
    obtain ⟨m, hm, hp, hs⟩ := e.first (H n t f hf)
    obtain ⟨_, hw⟩ := e.own_step_within (hs.trans hf) hp hb
    obtain ⟨lb, hl, hp⟩ := hp
    obtain ⟨s, s', st, ha, hq, hb', _⟩ := e.steps m lb hl
    have hf' : s.flights t = some f := by rw [ha, hs, hf]
    rcases own_step ((e.q m).congr ha hq) st hf' hp with ⟨_, h⟩ | ⟨_, g, hg, _⟩
    · refine ⟨m, f, hm, ?_, hs.trans hf, rfl, rfl⟩
      rcases h with h | ⟨o, h⟩
      · exact .inl (by rw [hl, h])
      · exact .inr ⟨o, by rw [hl, h]⟩
    · rcases flight_step st hg with ⟨f', hf2, he, ho, _⟩ | ⟨hn, _⟩
      · rw [hf'] at hf2; cases hf2
        rw [hb'] at hg
        obtain ⟨m', g', hm', h1, h2, h3, h4⟩ := ih (m + 1) t g hg (hw g hg)
        exact ⟨m', g', by omega, h1, h2, h3.trans ho, h4.trans he⟩
      · rw [hf'] at hn; simp at hn

end

end Usbip
