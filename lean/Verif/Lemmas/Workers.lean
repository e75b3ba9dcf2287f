import Verif.Spec.Workers
import Verif.Lemmas.MachineLive
import Mathlib.Data.Fintype.EquivFin
/-! Helper lemmas: executions on a number of worker threads. -/

namespace Usbip
open Spec

section
variable {τ : Type} {code : Code τ} {env : Env (HandlerId → τ)} {p : Profile} {devices : List Device}
  {w : World (HandlerId → τ)}

/-- A step leaves the programs of other tasks alone. -/
theorem whole_flights_other {s s' : Whole code} {lb : Option (TcpLabel (HandlerId → τ))}
    (st : Whole.Moves code env p s lb s') {t : Nat} (hn : ∀ l, lb = some (.server l) → prog l ≠ some t) :
    s'.fine.cfg.flights t = s.fine.cfg.flights t := by
  rcases st with st | ⟨rfl, rfl⟩
  rotate_left
  · rfl
  cases st with
  | socket lb a st hl ho => exact tcp_flights_other st (fun l h => hn l (by rw [h]))
  | handler lb f st hl =>
    cases st with
    | outer lb cfg' st => exact flights_other st (hn _ rfl)
    | poisoned t' f g k c cont ht => exact put_ne _ _ (fun e => hn _ rfl (by rw [e]; rfl))
    | leave t' f i r ht => exact put_ne _ _ (fun e => hn _ rfl (by rw [e]; rfl))
    | _ => rfl

/-- What a program's own step does to it. -/
theorem cfg_flights_own {σ} {env : Env σ} {p : Profile} {a b : Cfg σ} {l : Label σ} (st : Cfg.Step env p a l b) {t : Nat}
    {f : Flight σ} (hf : a.flights t = some f) (hp : prog l = some t) :
    (¬ Advances l ∧ b.flights t = none) ∨
    (Advances l ∧ ∀ f', b.flights t = some f' → f'.owner = f.owner ∧ ((∃ g k, f.code = .commit g k) → f'.committed = true)) := by
  cases st <;> simp only [prog, Option.some.injEq, reduceCtorEq] at hp <;> subst hp
  case iterate ht hc hr hi => rw [hf] at ht; cases ht
  case add ht => rw [hf] at ht; cases ht
  case remove ht => rw [hf] at ht; cases ht
  case abandon => exact .inl ⟨id, upd_self _ _ _⟩
  case finish =>
    refine .inr ⟨trivial, fun f' h => ?_⟩
    dsimp only [Cfg.put] at h
    rw [upd_self] at h; cases h
  case request ht hk hw =>
    rw [hf] at ht; cases ht
    refine .inr ⟨trivial, fun f' h => ?_⟩
    dsimp only [Cfg.put] at h
    rw [upd_self] at h; cases h
    exact ⟨rfl, fun ⟨g, k, h⟩ => by rw [hk] at h; cases h⟩
  case grant ht hk hw hq hc =>
    rw [hf] at ht; cases ht
    refine .inr ⟨trivial, fun f' h => ?_⟩
    dsimp only [Cfg.put] at h
    rw [upd_self] at h; cases h
    exact ⟨rfl, fun ⟨g, k, h⟩ => by rw [hk] at h; cases h⟩
  case commit ht hk =>
    rw [hf] at ht; cases ht
    refine .inr ⟨trivial, fun f' h => ?_⟩
    dsimp only [Cfg.put] at h
    rw [upd_self] at h; cases h
    exact ⟨rfl, fun _ => rfl⟩
  all_goals
    rename_i ht hk
    rw [hf] at ht; cases ht
    refine .inr ⟨trivial, fun f' h => ?_⟩
    dsimp only [Cfg.put] at h
    rw [upd_self] at h; cases h
    exact ⟨rfl, fun ⟨g, k, h⟩ => by rw [hk] at h; cases h⟩

theorem whole_flights_own {s s' : Whole code} {lb : Option (TcpLabel (HandlerId → τ))}
    (st : Whole.Moves code env p s lb s') {t : Nat} {f : Flight (HandlerId → τ)} (hf : s.fine.cfg.flights t = some f)
    {l : Label (HandlerId → τ)} (hl : lb = some (.server l)) (hp : prog l = some t) :
    (¬ Advances l ∧ s'.fine.cfg.flights t = none) ∨
    (Advances l ∧ ∀ f', s'.fine.cfg.flights t = some f' → f'.owner = f.owner ∧ ((∃ g k, f.code = .commit g k) → f'.committed = true)) := by
  rcases st with st | ⟨h, _⟩
  rotate_left
  · rw [hl] at h; cases h
  cases st with
  | socket lb a st hn ho =>
    cases hl
    obtain ⟨a', b', st', h1, _, h3, _⟩ := tcp_flightStep st
    have := cfg_flights_own st' (by rw [h1]; exact hf) hp
    rw [h3] at this
    exact this
  | handler lb f' st hn =>
    cases st with
    | outer lb cfg' st =>
      cases hl
      exact cfg_flights_own st hf hp
    | poisoned t' f g k c cont ht =>
      cases hl
      simp only [prog, Option.some.injEq] at hp
      subst hp
      rw [hf] at ht; cases ht
      refine .inr ⟨trivial, fun f' h => ?_⟩
      dsimp only [Cfg.resume, Cfg.put] at h
      rw [upd_self] at h; cases h
      exact ⟨rfl, fun _ => rfl⟩
    | leave t' f i r ht hf' hr =>
      cases hl
      simp only [prog, Option.some.injEq] at hp
      subst hp
      rw [hf] at hf'; cases hf'
      refine .inr ⟨trivial, fun f' h => ?_⟩
      dsimp only [Cfg.withWorld, Cfg.resume, Cfg.put] at h
      rw [upd_self] at h; cases h
      exact ⟨rfl, fun _ => rfl⟩
    | enter => cases hl
    | work => cases hl
    | appEnter => cases hl
    | appWork => cases hl
    | appLeave => cases hl; cases hp
    | appCrash => cases hl; cases hp
    | appPanic => cases hl; cases hp

/-- A program gets inside handler code at its handler call. -/
theorem whole_enter {s s' : Whole code} {lb : Option (TcpLabel (HandlerId → τ))}
    (st : Whole.Moves code env p s lb s') {t : Nat} (h1 : s.fine.inside t = none) (h2 : s'.fine.inside t ≠ none) :
    (∀ l, lb = some (.server l) → prog l ≠ some t) ∧ ∃ f g k, s.fine.cfg.flights t = some f ∧ f.code = .commit g k := by
  rcases st with st | ⟨rfl, rfl⟩
  rotate_left
  · exact absurd h1 h2
  cases st with
  | socket lb a st hl ho => exact absurd h1 h2
  | handler lb f st hl =>
    cases st with
    | enter t' f g k c cont ht hk =>
      refine ⟨(fun l e => by cases e), ?_⟩
      by_cases e : t = t'
      · subst e; exact ⟨f, g, k, ht, hk⟩
      · dsimp only at h2
        rw [upd_ne _ _ e] at h2
        exact absurd h1 h2
    | work t' i ht hr =>
      exfalso
      dsimp only [Fine.setObj] at h2
      by_cases e : t = t'
      · subst e; rw [ht] at h1; cases h1
      · rw [upd_ne _ _ e] at h2; exact h2 h1
    | leave t' f i r ht =>
      exfalso
      dsimp only at h2
      by_cases e : t = t'
      · subst e; rw [upd_self] at h2; exact h2 rfl
      · rw [upd_ne _ _ e] at h2; exact h2 h1
    | _ => exact absurd h1 h2

/-- Only a program that is there can get further. -/
theorem can_flight {s s' : Whole code} {lb : Option (TcpLabel (HandlerId → τ))} (hI : MInv env s.fine)
    (st : Whole.Step code env p s lb s') {t : Nat} (ha : Acts t s lb s') : ∃ f, s.fine.cfg.flights t = some f := by
  rcases ha with ⟨l, rfl, ha, hp⟩ | ⟨h1, h2⟩ | ⟨i, h, _⟩
  · refine Classical.byContradiction fun hn => ?_
    have hf : s.fine.cfg.flights t = none := by
      cases h : s.fine.cfg.flights t with
      | none => rfl
      | some f => exact absurd ⟨f, h⟩ hn
    generalize hlab : (some (TcpLabel.server l)) = ol at st
    cases st with
    | socket lb a st hl ho =>
      cases hlab
      obtain ⟨a', b', st, ha', _⟩ := tcp_flightStep st
      obtain ⟨g, rfl, _⟩ := first_step st (by rw [ha']; exact hf) hp
      exact ha
    | handler lb f st hl =>
      cases st with
      | outer lb cfg' st =>
        simp only [Option.map_some, Option.some.injEq, TcpLabel.server.injEq] at hlab
        subst hlab
        obtain ⟨g, rfl, _⟩ := first_step st hf hp
        exact ha
      | poisoned t' f g k c cont ht =>
        cases hlab; cases hp; exact absurd ⟨f, ht⟩ hn
      | leave t' f i r ht hf' =>
        cases hlab; cases hp; exact absurd ⟨f, hf'⟩ hn
      | appLeave a o e ha' => cases hlab; cases hp
      | appCrash a o e ha' => cases hlab; cases hp
      | appPanic o hf => cases hlab; cases hp
      | _ => cases hlab
  · obtain ⟨f, _, _, hf, _⟩ := (whole_enter (.inl st) h1 h2).2
    exact ⟨f, hf⟩
  · obtain ⟨f, _, _, hf, _⟩ := hI.call t i h
    exact ⟨f, hf⟩

/-- The task of a connection reads while it has no program. -/
theorem idle_of_take {s s' : Whole code} {c : Nat} (st : Whole.Moves code env p s (some (.take c)) s') : s.fine.cfg.idle c := by
  rcases st with st | ⟨h, _⟩
  rotate_left
  · cases h
  have st := whole_tcp_step st (fun l h => by cases h)
  generalize s'.tcp = s2 at st
  cases st with
  | take c x bs rest hc hi hb => exact hi

/-- It begins with a command while it has no program. -/
theorem idle_of_start {s s' : Whole code} {t c : Nat} {wr : WriteRes}
    (st : Whole.Moves code env p s (some (.server (.start t (.iterate c wr)))) s') : s.fine.cfg.idle c := by
  rcases st with st | ⟨h, _⟩
  rotate_left
  · cases h
  have st := whole_tcp_step st (fun l h h' => by cases h; exact h')
  generalize s'.tcp = s2 at st
  cases st with
  | iterate t c wr x ht hc hr hi => exact hi
  | iterateEnd t c wr x er ht hc hr hi => exact hi
  | other l cfg' st h1 h2 h3 => exact absurd rfl (h2 _ _ _)

/-! ### Steps of the process -/

/-- A task has one program at a time. -/
theorem duty_inj {σ} {s : Cfg σ} (T : Tame s) {t u : Nat} {f g : Flight σ} (hf : s.flights t = some f)
    (hg : s.flights u = some g) (h : dutyOf t f = dutyOf u g) : t = u := by
  unfold dutyOf at h
  cases h1 : f.owner <;> cases h2 : g.owner <;> rw [h1, h2] at h <;> cases h
  · rfl
  · exact T.owners _ _ _ _ _ hf hg h1 h2

/-- No step of program `t` at time `n`. -/
def Unlabelled (e : MachineExec code env p (Machine.init code devices w)) (t n : Nat) : Prop :=
  ∀ l, inServer (e.label n) = some (.server l) → prog l ≠ some t

variable {e : MachineExec code env p (Machine.init code devices w)} {e1 : WholeExec code env p (Whole.init code devices w)}
  {e2 : TcpExec env p (Tcp.init devices w)}

theorem Unlabelled.first {t n : Nat} (h : Unlabelled e t n) : ∀ l, label0 (e.label n) = some (.server l) → prog l ≠ some t := by
  intro l hl
  unfold label0 at hl
  split at hl
  · cases hl; simp [prog]
  · exact h l hl

theorem Within.first (B : Within e e1) (n : Nat) :
    Whole.Moves code env p (e.state n).whole (Usbip.label0 (e.label n)) (mid1 (e.state n) (e.label n) (e.state (n + 1))) ∧
    (mid1 (e.state n) (e.label n) (e.state (n + 1))).fine = (e.state (n + 1)).whole.fine := by
  have := e1.step (3 * n)
  rw [B.state0, B.label0, B.state1] at this
  exact ⟨this, (mid_same (e.step n)).1.1⟩

theorem Within.flights_other (B : Within e e1) {t n : Nat} (h : Unlabelled e t n) :
    (e.state (n + 1)).whole.fine.cfg.flights t = (e.state n).whole.fine.cfg.flights t := by
  obtain ⟨st, he⟩ := B.first n
  rw [← he]
  exact whole_flights_other st h.first

theorem Within.flights_own (B : Within e e1) {t n : Nat} {f : Flight (HandlerId → τ)}
    (hf : (e.state n).whole.fine.cfg.flights t = some f) (h : ¬ Unlabelled e t n) :
    (e.state (n + 1)).whole.fine.cfg.flights t = none ∨
    (Acts t (e.state n).whole (inServer (e.label n)) (e.state (n + 1)).whole ∧
      ∀ f', (e.state (n + 1)).whole.fine.cfg.flights t = some f' →
        f'.owner = f.owner ∧ ((∃ g k, f.code = .commit g k) → f'.committed = true)) := by
  obtain ⟨l, hl⟩ := Classical.not_forall.mp h
  obtain ⟨hl, hp⟩ := Classical.not_imp.mp hl
  have hp : prog l = some t := Classical.byContradiction hp
  obtain ⟨st, he⟩ := B.first n
  have hl0 : Usbip.label0 (e.label n) = some (.server l) := by
    unfold Usbip.label0
    split
    · rename_i h; rw [h] at hl; cases hl
    · exact hl
  rw [← he]
  rcases whole_flights_own st hf hl0 hp with ⟨_, h⟩ | ⟨ha, h⟩
  · exact .inl h
  · exact .inr ⟨.inl ⟨l, hl, ha, hp⟩, h⟩

theorem Within.inside_next (B : Within e e1) (C : Behind e1 e2) {t n : Nat} (hi : (e.state n).whole.fine.inside t ≠ none) :
    ((e.state (n + 1)).whole.fine.inside t = none ∧ ¬ Unlabelled e t n) ∨
    ((e.state (n + 1)).whole.fine.inside t ≠ none ∧ Unlabelled e t n) := by
  obtain ⟨st, he⟩ := B.first n
  obtain ⟨i, hi⟩ := Option.ne_none_iff_exists'.mp hi
  have hI := C.inv (3 * n)
  have hC := C.covered (3 * n)
  rw [B.state0] at hI hC
  rw [← he]
  have back : ∀ l, inServer (e.label n) = some (.server l) → Usbip.label0 (e.label n) = some (.server l) := by
    intro l hl
    unfold Usbip.label0
    split
    · rename_i h; rw [h] at hl; cases hl
    · exact hl
  rcases inside_step hI hC st hi with ⟨h, ev, hl, _⟩ | ⟨hl, ⟨h, _⟩ | ⟨_, h, _⟩⟩
  · refine .inl ⟨h, fun hu => hu.first _ hl rfl⟩
  · exact .inr ⟨by rw [h]; simp, fun l h => hl l (back l h)⟩
  · exact .inr ⟨by rw [h]; simp, fun l h => hl l (back l h)⟩

theorem Within.call (B : Within e e1) (C : Behind e1 e2) {t n : Nat} (hi : (e.state n).whole.fine.inside t ≠ none) :
    ∃ f g k, (e.state n).whole.fine.cfg.flights t = some f ∧ f.code = .commit g k := by
  obtain ⟨i, hi⟩ := Option.ne_none_iff_exists'.mp hi
  have hI := C.inv (3 * n)
  rw [B.state0] at hI
  obtain ⟨f, g, k, hf, hk, _⟩ := hI.call t i hi
  exact ⟨f, g, k, hf, hk⟩

theorem Within.inside_can (B : Within e e1) (C : Behind e1 e2) {t n : Nat} (hi : (e.state n).whole.fine.inside t ≠ none) :
    (Move.prog t).Can code env p (e.state n) := by
  obtain ⟨i, hi⟩ := Option.ne_none_iff_exists'.mp hi
  have := C.inside_acts (t := t) (m := 3 * n) (i := i) (by rw [B.state0]; exact hi)
  rw [B.state0] at this
  exact this

theorem Within.tame (B : Within e e1) (C : Behind e1 e2) (n : Nat) : Tame (e.state n).whole.fine.cfg := by
  have := C.tame (3 * n)
  rw [B.state0] at this; exact this

/-- A task that is and stays in code without `await` has one program, which does not move but into handler code and there. -/
theorem Within.sync_step (B : Within e e1) (C : Behind e1 e2) {j : Duty} {t n : Nat} {f : Flight (HandlerId → τ)}
    {g : World (HandlerId → τ) → World (HandlerId → τ)} {k : World (HandlerId → τ) → Task (HandlerId → τ)}
    (hf : (e.state n).whole.fine.cfg.flights t = some f) (hj : j = dutyOf t f) (hk : f.code = .commit g k)
    (hs : Synchronous j (e.state (n + 1))) :
    Unlabelled e t n ∧ (e.state (n + 1)).whole.fine.cfg.flights t = some f := by
  obtain ⟨t', f', g', k', hf', hj', hk'⟩ := hs
  have T := B.tame C n
  have T' := B.tame C (n + 1)
  by_cases hu : Unlabelled e t n
  · exact ⟨hu, by rw [B.flights_other hu]; exact hf⟩
  exfalso
  have hown := B.flights_own hf hu
  have htt : t' = t := by
    refine Classical.byContradiction fun hne => ?_
    have hu' : Unlabelled e t' n := by
      intro l hl hp
      refine hu fun l2 hl2 hp2 => ?_
      rw [hl] at hl2; cases hl2
      rw [hp] at hp2; cases hp2
      exact hne rfl
    rw [B.flights_other hu'] at hf'
    rw [hj] at hj'
    exact hne (duty_inj T hf' hf hj'.symm)
  subst htt
  rcases hown with h | ⟨_, h⟩
  · rw [h] at hf'; cases hf'
  · have h1 := (h f' hf').2 ⟨g, k, hk⟩
    rw [T'.once _ _ _ _ hf' hk'] at h1; cases h1

theorem Within.sync_const (B : Within e e1) (C : Behind e1 e2) {j : Duty} {n : Nat}
    (hs : ∀ m, n ≤ m → Synchronous j (e.state m)) :
    ∃ t f g k, j = dutyOf t f ∧ f.code = .commit g k ∧
      ∀ m, n ≤ m → (e.state m).whole.fine.cfg.flights t = some f ∧ Unlabelled e t m := by
  obtain ⟨t, f, g, k, hf, hj, hk⟩ := hs n (Nat.le_refl _)
  have all : ∀ m, n ≤ m → (e.state m).whole.fine.cfg.flights t = some f := by
    intro m hm
    induction hm with
    | refl => exact hf
    | @step m hm ih =>
      rw [Nat.le_eq] at hm
      exact (B.sync_step C ih hj hk (hs (m + 1) (by omega))).2
  exact ⟨t, f, g, k, hj, hk, fun m hm => ⟨all m hm, (B.sync_step C (all m hm) hj hk (hs (m + 1) (by omega))).1⟩⟩

theorem unlabelled_within (B : Within e e1) {t n : Nat} (h : ∀ m, n ≤ m → Unlabelled e t m) :
    ∀ i, 3 * n ≤ i → ∀ l, e1.label i = some (.server l) → prog l ≠ some t := by
  intro i hi l hl
  have : i = 3 * (i / 3) ∨ i = 3 * (i / 3) + 1 ∨ i = 3 * (i / 3) + 2 := by omega
  have hm : n ≤ i / 3 := by omega
  generalize i / 3 = m at this hm
  rcases this with rfl | rfl | rfl
  · rw [B.label0] at hl; exact (h m hm).first l hl
  · rw [B.label1] at hl
    unfold label1 at hl
    split at hl <;> cases hl
  · rw [B.label2] at hl
    unfold label2 at hl
    split at hl <;> cases hl

/-! ### Threads -/

variable {W : Nat} {on : Nat → Nat → Option Duty}

/-- A program inside handler code has a thread. -/
theorem Within.has_thread (B : Within e e1) (C : Behind e1 e2) (P : Pool e W on) (t n : Nat)
    (hi : (e.state n).whole.fine.inside t ≠ none) :
    ∃ f v, (e.state n).whole.fine.cfg.flights t = some f ∧ on n v = some (dutyOf t f) := by
  induction n with
  | zero => rw [e.init] at hi; exact absurd rfl hi
  | succ n ih =>
    by_cases h0 : (e.state n).whole.fine.inside t = none
    · obtain ⟨st, he⟩ := B.first n
      obtain ⟨hu, f, g, k, hf, hk⟩ := whole_enter st h0 (by rw [he]; exact hi)
      have hf' : (e.state (n + 1)).whole.fine.cfg.flights t = some f := by
        rw [← he]; rw [whole_flights_other st hu]; exact hf
      obtain ⟨j, v, ⟨f2, hf2, hj⟩, hv⟩ := P.only n (.prog t) (.inr (.inl ⟨h0, hi⟩))
      rw [hf] at hf2; cases hf2
      exact ⟨f, v, hf', by rw [← hj]; exact P.blocked n v j hv ⟨t, f, g, k, hf, hj, hk⟩ ⟨t, f, g, k, hf', hj, hk⟩⟩
    · obtain ⟨f, v, hf, hv⟩ := ih h0
      rcases B.inside_next C h0 with ⟨h, _⟩ | ⟨_, hu⟩
      · exact absurd h hi
      obtain ⟨f2, g, k, hf2, hk⟩ := B.call C h0
      rw [hf] at hf2; cases hf2
      have hf' := B.flights_other hu
      rw [hf] at hf'
      exact ⟨f, v, hf', P.blocked n v _ hv ⟨t, f, g, k, hf, rfl, hk⟩ ⟨t, f, g, k, hf', rfl, hk⟩⟩

/-- A task that stays in code without `await` keeps its thread. -/
theorem Spec.Pool.stays (P : Pool e W on) {j : Duty} {n v : Nat} (hv : on n v = some j)
    (hs : ∀ m, n ≤ m → Synchronous j (e.state m)) : ∀ m, n ≤ m → on m v = some j := by
  intro m hm
  induction hm with
  | refl => exact hv
  | @step m hm ih =>
    rw [Nat.le_eq] at hm
    exact P.blocked m v j ih (hs m hm) (hs (m + 1) (by omega))

/-- A program that stays inside handler code keeps its thread. -/
theorem Within.inside_const (B : Within e e1) (C : Behind e1 e2) {t n : Nat}
    (hi : ∀ m, n ≤ m → (e.state m).whole.fine.inside t ≠ none) :
    ∃ f g k, f.code = .commit g k ∧ ∀ m, n ≤ m → (e.state m).whole.fine.cfg.flights t = some f := by
  obtain ⟨f, g, k, hf, hk⟩ := B.call C (hi n (Nat.le_refl _))
  refine ⟨f, g, k, hk, fun m hm => ?_⟩
  induction hm with
  | refl => exact hf
  | @step m hm ih =>
    rw [Nat.le_eq] at hm
    rcases B.inside_next C (hi m hm) with ⟨h, _⟩ | ⟨_, hu⟩
    · exact absurd h (hi (m + 1) (by omega))
    · rw [B.flights_other hu]; exact ih

/-- A program inside handler code is not left alone. -/
theorem Within.inside_moves (B : Within e e1) (C : Behind e1 e2) (P : Pool e W on) (t n : Nat)
    (H : ∀ i, n ≤ i → (e1.state i).fine.inside t ≠ none) :
    ∃ i, n ≤ i ∧ Acts t (e1.state i) (e1.label i) (e1.state (i + 1)) := by
  have hi : ∀ m, n ≤ m → (e.state m).whole.fine.inside t ≠ none := by
    intro m hm
    rw [← B.state0]; exact H (3 * m) (by omega)
  obtain ⟨f, g, k, hk, hf⟩ := B.inside_const C hi
  obtain ⟨f2, v, hf2, hv⟩ := B.has_thread C P t n (hi n (Nat.le_refl _))
  rw [hf n (Nat.le_refl _)] at hf2; cases hf2
  have hst := P.stays hv (fun m hm => ⟨t, f, g, k, hf m hm, rfl, hk⟩)
  obtain ⟨m, hm, ha⟩ := P.runs n (dutyOf t f) (.prog t) (fun m hm => ⟨⟨f, hf m hm, rfl⟩, B.inside_can C (hi m hm)⟩)
    (fun m hm => ⟨m, v, Nat.le_refl _, hst m hm⟩)
  refine ⟨3 * m, by omega, ?_⟩
  rw [B.state0, B.label0, B.state1]
  exact acts_first (e.step m) ha

/-- No thread keeps a task for ever. -/
theorem Within.changes (B : Within e e1) (C : Behind e1 e2) (hret : Returns code) (P : Pool e W on) (O : Outside e)
    {n v : Nat} {j : Duty} (hv : ∀ m, n ≤ m → on m v = some j) : False := by
  obtain ⟨n1, hn1, hs⟩ := P.letsGo n v j hv
  obtain ⟨t, f, g, k, hj, hk, hf⟩ := B.sync_const C hs
  have happs : ∀ a i, ∃ i', i ≤ i' ∧ (e1.state i').fine.app a = none := by
    intro a i
    obtain ⟨m, hm, h⟩ := O.apps a i
    exact ⟨3 * m, by omega, by rw [B.state0]; exact h⟩
  by_cases h : ∃ m, n1 ≤ m ∧ (e.state m).whole.fine.inside t ≠ none
  · obtain ⟨m, hm, hi⟩ := h
    have all : ∀ m', m ≤ m' → (e.state m').whole.fine.inside t ≠ none := by
      intro m' hm'
      induction hm' with
      | refl => exact hi
      | @step m' hm' ih =>
        rw [Nat.le_eq] at hm'
        rcases B.inside_next C ih with ⟨_, h⟩ | ⟨h, _⟩
        · exact absurd (hf m' (by omega)).2 h
        · exact h
    obtain ⟨i, hi'⟩ := Option.ne_none_iff_exists'.mp hi
    obtain ⟨i', hi', hn⟩ := C.leaves_of hret (B.inside_moves C P) (t := t) (m0 := 3 * m) (i := i) (by rw [B.state0]; exact hi')
    obtain ⟨m', hm', _, hfe, _⟩ := B.near i'
    rw [hfe] at hn
    exact all m' (by omega) hn
  · have hno : ∀ m, n1 ≤ m → (e.state m).whole.fine.inside t = none := fun m hm =>
      Classical.byContradiction fun hi => h ⟨m, hm, hi⟩
    have near : ∀ i, 3 * n1 ≤ i → ∃ m, n1 ≤ m ∧ i ≤ 3 * m ∧ (e1.state i).fine = (e.state m).whole.fine ∧
        (e1.state i).got = (e.state m).whole.got := by
      intro i hi
      obtain ⟨m, h1, h2, h3, h4⟩ := B.near i
      exact ⟨m, by omega, h1, h3, h4⟩
    have acts := C.call_acts hret (B.inside_moves C P) happs (t := t) (n := 3 * n1) (f := f)
      (fun i hi => by
        obtain ⟨m, hm, _, h, _⟩ := near i hi
        rw [h]; exact (hf m hm).1) hk
      (fun i hi l hl => by
        have := unlabelled_within B (fun m hm => (hf m hm).2) i hi
        rw [C.label] at hl
        cases h1 : e1.label i with
        | none => rw [h1] at hl; cases hl; simp [prog]
        | some lb => rw [h1] at hl; cases hl; exact this l h1)
      (fun i hi => by
        obtain ⟨m, hm, _, h, _⟩ := near i hi
        rw [h]; exact hno m hm)
    obtain ⟨m, hm, ha⟩ := P.mutexes n1 v j t
      (fun m hm => ⟨hv m (by omega), ⟨f, (hf m hm).1, hj⟩, hno m hm, f, g, k, (hf m hm).1, hk⟩)
      (fun m hm => by
        obtain ⟨i, hi, lb, s', st, ha⟩ := acts (3 * m) (by omega)
        obtain ⟨m', hm', him, hfe, hg⟩ := near i (by omega)
        exact ⟨m', by omega, acts_any st ha hfe.symm hg.symm⟩)
    rcases ha with ⟨l, hl, _, hp⟩ | ⟨_, h⟩ | ⟨i, h, _⟩
    · exact (hf m hm).2 l hl hp
    · exact h (hno (m + 1) (by omega))
    · rw [hno m hm] at h; cases h

/-- Again and again a thread takes another task. -/
theorem Within.frees (B : Within e e1) (C : Behind e1 e2) (hret : Returns code) (P : Pool e W on) (O : Outside e) (hW : 0 < W)
    (m : Nat) : ∃ m' v, m ≤ m' ∧ v < W ∧ (on m' v = none ∨ on (m' + 1) v ≠ on m' v) := by
  refine Classical.byContradiction fun hn => ?_
  have hc : ∀ m', m ≤ m' → on m' 0 ≠ none ∧ on (m' + 1) 0 = on m' 0 := by
    intro m' hm'
    exact ⟨fun h => hn ⟨m', 0, hm', hW, .inl h⟩, Classical.byContradiction fun h => hn ⟨m', 0, hm', hW, .inr h⟩⟩
  obtain ⟨j, hj⟩ := Option.ne_none_iff_exists'.mp (hc m (Nat.le_refl _)).1
  refine B.changes C hret P O (n := m) (v := 0) (j := j) fun m' hm' => ?_
  induction hm' with
  | refl => exact hj
  | @step m' hm' ih =>
    rw [Nat.le_eq] at hm'
    rw [(hc m' hm').2]; exact ih

/-- What a task could do for ever it does. -/
theorem Within.does (B : Within e e1) (C : Behind e1 e2) (hret : Returns code) (P : Pool e W on) (O : Outside e) (hW : 0 < W)
    {n : Nat} {j : Duty} {M : Move} (h : ∀ m, n ≤ m → M.Of j (e.state m) ∧ M.Can code env p (e.state m)) :
    ∃ m, n ≤ m ∧ M.Made (e.state m) (e.label m) (e.state (m + 1)) := by
  refine P.runs n j M h fun m hm => ?_
  obtain ⟨m', v, hm', hv⟩ := P.turn m j (fun m' hm' => .inr ⟨M, h m' (by omega)⟩) (fun m' _ => B.frees C hret P O hW m')
  exact ⟨m', v, hm', hv⟩

/-- On any number of threads executions are fair. -/
theorem pool_fair (hb : Behaves code env) (hret : Returns code) (P : Pool e W on) (O : Outside e) (hW : 0 < W) : e.Fair := by
  obtain ⟨e1, B⟩ := exists_within hb e
  obtain ⟨e2, C⟩ := exists_behind hb e1
  have inv : ∀ n, MInv env (e.state n).whole.fine := by
    intro n
    have := C.inv (3 * n)
    rw [B.state0] at this; exact this
  refine ⟨fun t n => ?_, fun t n hc he => ?_, O.apps, fun c n => ?_, fun c n => ?_, O.clients, fun k n => ?_⟩
  · refine Classical.byContradiction fun hn => ?_
    have hno : ∀ m, n ≤ m → ¬ Acts t (e.state m).whole (inServer (e.label m)) (e.state (m + 1)).whole :=
      fun m hm h => hn ⟨m, hm, .inl h⟩
    have hcan : ∀ m, n ≤ m → (Move.prog t).Can code env p (e.state m) :=
      fun m hm => Classical.byContradiction fun h => hn ⟨m, hm, .inr h⟩
    have hfl : ∀ m, n ≤ m → ∃ f, (e.state m).whole.fine.cfg.flights t = some f := by
      intro m hm
      obtain ⟨lb, s', st, ha⟩ := hcan m hm
      exact can_flight (inv m) st ha
    obtain ⟨f, hf⟩ := hfl n (Nat.le_refl _)
    have all : ∀ m, n ≤ m → (e.state m).whole.fine.cfg.flights t = some f := by
      intro m hm
      induction hm with
      | refl => exact hf
      | @step m hm ih =>
        rw [Nat.le_eq] at hm
        by_cases hu : Unlabelled e t m
        · rw [B.flights_other hu]; exact ih
        · rcases B.flights_own ih hu with h | ⟨h, _⟩
          · obtain ⟨f', h'⟩ := hfl (m + 1) (by omega)
            rw [h] at h'; cases h'
          · exact absurd h (hno m hm)
    obtain ⟨m, hm, h⟩ := B.does C hret P O hW (n := n) (j := dutyOf t f) (M := .prog t)
      (fun m hm => ⟨⟨f, all m hm, rfl⟩, hcan m hm⟩)
    exact hno m hm h
  · refine Classical.byContradiction fun hn => ?_
    have hno : ∀ m, n ≤ m → ¬ Acts t (e.state m).whole (inServer (e.label m)) (e.state (m + 1)).whole :=
      fun m hm h => hn ⟨m, hm, h⟩
    obtain ⟨_, f, g, k, hf, hk⟩ := hc n (Nat.le_refl _)
    have all : ∀ m, n ≤ m → (e.state m).whole.fine.cfg.flights t = some f := by
      intro m hm
      induction hm with
      | refl => exact hf
      | @step m hm ih =>
        rw [Nat.le_eq] at hm
        by_cases hu : Unlabelled e t m
        · rw [B.flights_other hu]; exact ih
        · rcases B.flights_own ih hu with h | ⟨h, _⟩
          · obtain ⟨_, f', _, _, h', _⟩ := hc (m + 1) (by omega)
            rw [h] at h'; cases h'
          · exact absurd h (hno m hm)
    have hs : ∀ m, n ≤ m → Synchronous (dutyOf t f) (e.state m) := fun m hm => ⟨t, f, g, k, all m hm, rfl, hk⟩
    obtain ⟨m0, v, hm0, hv⟩ := P.turn n (dutyOf t f) (fun m hm => .inl (hs m hm)) (fun m' _ => B.frees C hret P O hW m')
    have hst := P.stays hv (fun m hm => hs m (by omega))
    obtain ⟨m, hm, h⟩ := P.mutexes m0 v (dutyOf t f) t
      (fun m hm => ⟨hst m hm, ⟨f, all m (by omega), rfl⟩, hc m (by omega)⟩) (fun m hm => he m (by omega))
    exact hno m (by omega) h
  · refine Classical.byContradiction fun hn => ?_
    obtain ⟨m, hm, h⟩ := B.does C hret P O hW (n := n) (j := .conn c) (M := .read c)
      (fun m hm => ⟨rfl, Classical.byContradiction fun h => hn ⟨m, hm, .inr h⟩⟩)
    exact hn ⟨m, hm, .inl h⟩
  · refine Classical.byContradiction fun hn => ?_
    obtain ⟨m, hm, h⟩ := B.does C hret P O hW (n := n) (j := .conn c) (M := .loop c)
      (fun m hm => ⟨rfl, Classical.byContradiction fun h => hn ⟨m, hm, .inr h⟩⟩)
    exact hn ⟨m, hm, .inl h⟩
  · refine Classical.byContradiction fun hn => ?_
    obtain ⟨m0, hm0, h | hno⟩ := O.errors k n
    · exact hn ⟨m0, hm0, .inl h⟩
    obtain ⟨m, hm, h | h⟩ := B.does C hret P O hW (n := m0) (j := .serve k) (M := .accept k)
      (fun m hm => ⟨rfl, Classical.byContradiction fun h => hn ⟨m, by omega, .inr h⟩⟩)
    · exact hn ⟨m, by omega, .inl h⟩
    · exact hno m hm h

/-- Threads that are inside handler code for ever. -/
theorem pool_stuck (hb : Behaves code env) (P : Pool e W on) {n : Nat} {ts : Fin W → Nat} (hts : Function.Injective ts)
    (hi : ∀ q m, n ≤ m → (e.state m).whole.fine.inside (ts q) ≠ none) :
    ∀ m (M : Move), n ≤ m → M.Made (e.state m) (e.label m) (e.state (m + 1)) → ∃ q, M = .prog (ts q) := by
  obtain ⟨e1, B⟩ := exists_within hb e
  obtain ⟨e2, C⟩ := exists_behind hb e1
  intro m M hm hmade
  have T := B.tame C m
  have hth : ∀ q, ∃ v : Fin W, ∃ f, (e.state m).whole.fine.cfg.flights (ts q) = some f ∧ on m v = some (dutyOf (ts q) f) := by
    intro q
    obtain ⟨f, v, hf, hv⟩ := B.has_thread C P (ts q) m (hi q m hm)
    refine ⟨⟨v, ?_⟩, f, hf, hv⟩
    refine Classical.byContradiction fun h => ?_
    rw [P.threads m v (by omega)] at hv; cases hv
  have hchoose := Classical.axiomOfChoice hth
  obtain ⟨V, hV⟩ := hchoose
  have hinj : Function.Injective V := by
    intro q q' h
    obtain ⟨f, hf, hv⟩ := hV q
    obtain ⟨f', hf', hv'⟩ := hV q'
    rw [h, hv'] at hv
    exact hts (duty_inj T hf hf' (Option.some.inj hv).symm)
  have hsur : Function.Surjective V := Finite.injective_iff_surjective.mp hinj
  obtain ⟨j, v, hof, hv⟩ := P.only m M hmade
  have hvW : v < W := by
    refine Classical.byContradiction fun h => ?_
    rw [P.threads m v (by omega)] at hv; cases hv
  obtain ⟨q, hq⟩ := hsur ⟨v, hvW⟩
  obtain ⟨f, hf, hv'⟩ := hV q
  rw [hq, hv] at hv'
  have hj := Option.some.inj hv'
  subst hj
  refine ⟨q, ?_⟩
  have idle : ∀ c, dutyOf (ts q) f = .conn c → ¬ (e.state m).whole.fine.cfg.idle c := by
    intro c h hid
    unfold dutyOf at h
    split at h
    · rename_i c' ho
      cases h
      exact hid _ f hf ho
    · cases h
  obtain ⟨st, _⟩ := B.first m
  cases M with
  | prog t =>
    obtain ⟨f', hf', h⟩ := hof
    rw [duty_inj T hf hf' h]
  | read c =>
    exfalso
    obtain ⟨hl, _⟩ := hmade
    rw [hl] at st
    exact idle c hof (idle_of_take st)
  | loop c =>
    exfalso
    obtain ⟨t, wr, hl⟩ := hmade
    rw [hl] at st
    exact idle c hof (idle_of_start st)
  | accept k =>
    exfalso
    have hof : dutyOf (ts q) f = .serve k := hof
    unfold dutyOf at hof
    split at hof <;> cases hof

end
end Usbip
