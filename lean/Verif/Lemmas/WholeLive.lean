import Verif.Spec.WholeLive
import Verif.Lemmas.Whole
import Verif.Lemmas.Turn
/-! Helper lemmas: infinite executions with handler code that runs step by step. -/

namespace Usbip
open Spec

/-- Dependent choice. -/
theorem exists_chain {α : Type} (P : Nat → α → Prop) (R : Nat → α → α → Prop) (x0 : α) (h0 : P 0 x0)
    (hs : ∀ n x, P n x → ∃ y, P (n + 1) y ∧ R n x y) :
    ∃ f : Nat → α, f 0 = x0 ∧ ∀ n, P n (f n) ∧ R n (f n) (f (n + 1)) := by
  let F : ∀ n, { x : α // P n x } := fun n => Nat.rec (motive := fun n => { x : α // P n x }) ⟨x0, h0⟩
    (fun n x => ⟨Classical.choose (hs n x.1 x.2), (Classical.choose_spec (hs n x.1 x.2)).1⟩) n
  exact ⟨fun n => (F n).1, rfl, fun n => ⟨(F n).2, (Classical.choose_spec (hs n (F n).1 (F n).2)).2⟩⟩

section
variable {τ : Type} {code : Code τ} {env : Env (HandlerId → τ)} {p : Profile} {devices : List Device}
  {w : World (HandlerId → τ)}

/-- What a step does to a program inside handler code: it leaves, or gets one step further, or nothing happens to it. -/
theorem inside_step {s s' : Whole code} {lb : Option (TcpLabel (HandlerId → τ))} (hI : MInv env s.fine)
    (hC : Covered env p s.fine.cfg) (st : Whole.Moves code env p s lb s') {t : Nat} {i : Inside code}
    (hi : s.fine.inside t = some i) :
    (s'.fine.inside t = none ∧ ∃ ev, lb = some (.server (.effect t ev)) ∧ ∃ r, code.result i.loc = some r) ∨
    ((∀ l, lb = some (.server l) → prog l ≠ some t) ∧
      ((s'.fine.inside t = some i ∧ s'.fine.cfg.shared.world.user (code.obj i.call.target) = s.fine.cfg.shared.world.user (code.obj i.call.target)) ∨
      (code.result i.loc = none ∧
        s'.fine.inside t = some { i with loc := (code.step i.loc (s.fine.cfg.shared.world.user (code.obj i.call.target))).1 } ∧
        s'.fine.cfg.shared.world.user (code.obj i.call.target) = (code.step i.loc (s.fine.cfg.shared.world.user (code.obj i.call.target))).2))) := by
  rcases st with st | ⟨rfl, rfl⟩
  rotate_left
  · exact .inr ⟨fun l e => (by cases e), .inl ⟨hi, rfl⟩⟩
  cases st with
  | socket lb a st hl ho =>
    refine .inr ⟨fun l e hp => ?_, .inl ⟨hi, ?_⟩⟩
    · cases e
      have := ho l t rfl hp
      rw [hi] at this; cases this
    · have := (tcp_step_world st hl s.fine.cfg.shared.world).1
      dsimp only
      rw [this]; rfl
  | handler lb f st hl =>
    cases st with
    | outer lb cfg' st ho hu he =>
      refine .inr ⟨fun l e hp => ?_, .inl ⟨hi, ?_⟩⟩
      · simp only [Option.map_some, Option.some.injEq, TcpLabel.server.injEq] at e
        subst e
        have := ho t hp
        rw [hi] at this; cases this
      · have := (step_world st hu (hC.passive st he) s.fine.cfg.shared.world).1
        dsimp only
        rw [this]
    | enter t' f g k c cont ht hk hc hr hi' hf hp =>
      have hne : t ≠ t' := fun e => by subst e; rw [hi] at hi'; cases hi'
      exact .inr ⟨fun l e => (by cases e), .inl ⟨(upd_ne _ _ hne).trans hi, rfl⟩⟩
    | poisoned t' f g k c cont ht hk hc hr hi' hp =>
      have hne : t ≠ t' := fun e => by subst e; rw [hi] at hi'; cases hi'
      refine .inr ⟨fun l e hp => ?_, .inl ⟨hi, rfl⟩⟩
      cases e
      simp only [prog, Option.some.injEq] at hp
      exact hne hp.symm
    | work t' i' ht' hr' =>
      refine .inr ⟨fun l e => (by cases e), ?_⟩
      by_cases e : t = t'
      · subst e
        rw [hi] at ht'; cases ht'
        exact .inr ⟨hr', upd_self _ _ _, upd_self _ _ _⟩
      · refine .inl ⟨(upd_ne _ _ e).trans hi, upd_ne _ _ (fun h => e (hI.one t t' i i' hi ht' h))⟩
    | leave t' f i' r ht' hf hr' =>
      by_cases e : t = t'
      · subst e
        rw [hi] at ht'; cases ht'
        exact .inl ⟨upd_self _ _ _, _, rfl, r, hr'⟩
      · refine .inr ⟨fun l e' hp => ?_, .inl ⟨(upd_ne _ _ e).trans hi, ?_⟩⟩
        · cases e'
          simp only [prog, Option.some.injEq] at hp
          exact e hp.symm
        · dsimp only [Cfg.withWorld]
          split
          · rw [poison_user]
          · rfl
    | appEnter a o ha hf => exact .inr ⟨fun l e => (by cases e), .inl ⟨hi, rfl⟩⟩
    | appWork a o e v ha =>
      refine .inr ⟨fun l e => (by cases e), .inl ⟨hi, upd_ne _ _ (fun h => ?_)⟩⟩
      exact hI.mixed t i a e hi (by rw [h]; exact ha)
    | appLeave a o e ha =>
      refine .inr ⟨fun l e' hp => ?_, .inl ⟨hi, rfl⟩⟩
      cases e'
      cases hp
    | appCrash a o e ha =>
      refine .inr ⟨fun l e' hp => ?_, .inl ⟨hi, ?_⟩⟩
      · cases e'
        cases hp
      · dsimp only [Cfg.withWorld]
        rw [poison_user]
    | appPanic o hf =>
      refine .inr ⟨fun l e' hp => ?_, .inl ⟨hi, ?_⟩⟩
      · cases e'
        cases hp
      · dsimp only [Cfg.withWorld]
        rw [poison_user]

/-- The execution on sockets behind an execution. -/
structure Behind (e : WholeExec code env p (Whole.init code devices w)) (e' : TcpExec env p (Tcp.init devices w)) : Prop where
  inv : ∀ n, MInv env (e.state n).fine
  same : ∀ n, ∃ w', e'.state n = (e.state n).tcp.withWorld w'
  label : ∀ n, e'.label n = (e.label n).getD (.server (.outside (.user id)))

theorem exists_behind (hb : Behaves code env) (e : WholeExec code env p (Whole.init code devices w)) :
    ∃ e', Behind e e' := by
  obtain ⟨ws, h0, h⟩ := exists_chain
    (P := fun n x => (MInv env (e.state n).fine ∧ Abs (e.state n).fine x) ∧
      ∃ ls, Tcp.Reach env p (Tcp.init devices w) ls ((e.state n).tcp.withWorld x))
    (R := fun n x y => match e.label n with
      | none => (e.state (n + 1)).tcp.withWorld y = (e.state n).tcp.withWorld x
      | some lb => Tcp.Step env p ((e.state n).tcp.withWorld x) lb ((e.state (n + 1)).tcp.withWorld y))
    w (by
      rw [e.init]
      exact ⟨⟨.init code env devices w, rfl, rfl, fun _ _ => rfl, fun t i h => by simp [Whole.init, Fine.init] at h,
        fun a h e h' => by simp [Whole.init, Fine.init] at h'⟩, [], .refl⟩)
    (fun n x ⟨⟨hI, hA⟩, ls, hr⟩ => by
      have hC : Covered env p (e.state n).fine.cfg := fun t f g k ht hk => tcp_covered hr t f g k ht hk
      have st := e.step n
      generalize e.label n = ol at st ⊢
      rcases st with st | ⟨rfl, h'⟩
      rotate_left
      · exact ⟨x, ⟨⟨by rw [h']; exact hI, by rw [h']; exact hA⟩, ls, by rw [h']; exact hr⟩, by rw [h']⟩
      obtain ⟨hI2, w2, hA2, hst⟩ := whole_step hb hC hI st hA
      cases ol with
      | none => exact ⟨w2, ⟨⟨hI2, hA2⟩, ls, by dsimp only at hst; rw [hst]; exact hr⟩, hst⟩
      | some lb => exact ⟨w2, ⟨⟨hI2, hA2⟩, _, .tail hr hst⟩, hst⟩)
  refine ⟨⟨fun n => (e.state n).tcp.withWorld (ws n), fun n => (e.label n).getD (.server (.outside (.user id))), ?_, fun n => ?_⟩,
    fun n => (h n).1.1.1, fun n => ⟨_, rfl⟩, fun n => rfl⟩
  · rw [h0, e.init]; rfl
  · have := (h n).2
    cases hl : e.label n with
    | none =>
      rw [hl] at this
      dsimp only at this ⊢
      rw [this]
      exact .other _ _ _ (.user _ id none) (by simp) (by simp) (by simp)
    | some lb => rw [hl] at this; exact this

variable {e : WholeExec code env p (Whole.init code devices w)} {e' : TcpExec env p (Tcp.init devices w)}

theorem Behind.cfg (B : Behind e e') (n : Nat) : (e'.state n).cfg.flights = (e.state n).fine.cfg.flights ∧
    (e'.state n).cfg.conns = (e.state n).fine.cfg.conns ∧ (e'.state n).cfg.queue = (e.state n).fine.cfg.queue ∧
    (e'.state n).cfg.shared.used = (e.state n).fine.cfg.shared.used ∧ (e'.state n).buf = (e.state n).buf ∧
    (e'.state n).ended = (e.state n).ended ∧ (e'.state n).got = (e.state n).got := by
  obtain ⟨w', h⟩ := B.same n
  rw [h]
  exact ⟨rfl, rfl, rfl, rfl, rfl, rfl, rfl⟩

theorem Behind.covered (B : Behind e e') (n : Nat) : Covered env p (e.state n).fine.cfg := by
  obtain ⟨w', h⟩ := B.same n
  have hr := e'.reach n
  rw [h] at hr
  exact fun t f g k ht hk => tcp_covered hr t f g k ht hk

theorem Behind.tame (B : Behind e e') (n : Nat) : Tame (e.state n).fine.cfg := by
  obtain ⟨w', h⟩ := B.same n
  have hr := e'.reach n
  rw [h] at hr
  have := tcp_tame hr
  exact ⟨this.excl, this.get, this.put, this.once, this.owners, this.owner⟩

/-- Steps on sockets are possible if they are in the execution behind. -/
theorem Behind.back (B : Behind e e') (n : Nat) {lb : TcpLabel (HandlerId → τ)} {a : Tcp (HandlerId → τ)}
    (st : Tcp.Step env p (e'.state n) lb a) (hl : ∀ l, lb = .server l → ¬ ofHandlers (some l))
    (ho : ∀ l t, lb = .server l → prog l = some t → (e.state n).fine.inside t = none) :
    ∃ s', Whole.Step code env p (e.state n) (some lb) s' ∧ s'.buf = a.buf := by
  obtain ⟨w', h⟩ := B.same n
  rw [h] at st
  have := (tcp_step_world st hl (e.state n).fine.cfg.shared.world).2
  exact ⟨_, .socket (e.state n) lb _ this hl ho, rfl⟩

/-- A program inside handler code can always get further. -/
theorem Behind.inside_acts (B : Behind e e') {t m : Nat} {i : Inside code} (hi : (e.state m).fine.inside t = some i) :
    ∃ lb s', Whole.Step code env p (e.state m) lb s' ∧ Acts t (e.state m) lb s' := by
  cases hr : code.result i.loc with
  | none =>
    exact ⟨_, _, .handler _ none _ (.work (e.state m).fine t i hi hr) trivial,
      .inr (.inr ⟨i, hi, hr, upd_self _ _ _, upd_self _ _ _⟩)⟩
  | some r =>
    obtain ⟨f, g, k, hf, hk, _⟩ := (B.inv m).call t i hi
    exact ⟨_, _, .handler _ (some _) _ (.leave (e.state m).fine t f i r hi hf hr) trivial, .inl ⟨_, rfl, trivial, rfl⟩⟩

/-- A program that stays inside handler code gets a step further. -/
theorem Behind.works (B : Behind e e') {t m0 : Nat} (H : ∀ m, m0 ≤ m → (e.state m).fine.inside t ≠ none) :
    ∀ d m i, m0 ≤ m → (e.state m).fine.inside t = some i →
      Acts t (e.state (m + d)) (e.label (m + d)) (e.state (m + d + 1)) →
      ∃ m1, m ≤ m1 ∧ code.result i.loc = none ∧ (e.state (m1 + 1)).fine.inside t =
          some { i with loc := (code.step i.loc ((e.state m).fine.cfg.shared.world.user (code.obj i.call.target))).1 } ∧
        (e.state (m1 + 1)).fine.cfg.shared.world.user (code.obj i.call.target) =
          (code.step i.loc ((e.state m).fine.cfg.shared.world.user (code.obj i.call.target))).2 := by
  intro d
  induction d with
  | zero =>
    intro m i hm hi ha
    rcases inside_step (B.inv m) (B.covered m) (e.step m) hi with ⟨h, _⟩ | ⟨hl, ⟨h1, h2⟩ | h⟩
    · exact absurd h (H (m + 1) (by omega))
    · rcases ha with ⟨l, h, _, hp⟩ | ⟨h, _⟩ | ⟨j, hj, h⟩
      · exact absurd hp (hl l h)
      · rw [show (e.state (m + 0)).fine.inside t = (e.state m).fine.inside t from rfl, hi] at h; cases h
      · rw [show (e.state (m + 0)).fine.inside t = (e.state m).fine.inside t from rfl, hi] at hj; cases hj
        exact ⟨m, Nat.le_refl _, h⟩
    · exact ⟨m, Nat.le_refl _, h⟩
  | succ d ih =>
    intro m i hm hi ha
    rcases inside_step (B.inv m) (B.covered m) (e.step m) hi with ⟨h, _⟩ | ⟨hl, ⟨h1, h2⟩ | h⟩
    · exact absurd h (H (m + 1) (by omega))
    · obtain ⟨m1, hm1, h⟩ := ih (m + 1) i (by omega) h1 (by
        rw [show m + 1 + d = m + (d + 1) from by omega]; exact ha)
      rw [h2] at h
      exact ⟨m1, by omega, h⟩
    · exact ⟨m, Nat.le_refl _, h⟩

/-- Handler code that always returns is left, if programs inside handler code are not left alone. -/
theorem Behind.leaves_of (B : Behind e e') (hret : Returns code)
    (hin : ∀ t n, (∀ m, n ≤ m → (e.state m).fine.inside t ≠ none) →
      ∃ m, n ≤ m ∧ Acts t (e.state m) (e.label m) (e.state (m + 1))) {t m0 : Nat} {i : Inside code}
    (hi : (e.state m0).fine.inside t = some i) : ∃ m, m0 ≤ m ∧ (e.state m).fine.inside t = none := by
  refine Classical.byContradiction fun hn => ?_
  have H : ∀ m, m0 ≤ m → (e.state m).fine.inside t ≠ none := fun m hm h => hn ⟨m, hm, h⟩
  have next : ∀ m i, m0 ≤ m → (e.state m).fine.inside t = some i →
      ∃ m1, m ≤ m1 ∧ code.result i.loc = none ∧ (e.state (m1 + 1)).fine.inside t =
          some { i with loc := (code.step i.loc ((e.state m).fine.cfg.shared.world.user (code.obj i.call.target))).1 } ∧
        (e.state (m1 + 1)).fine.cfg.shared.world.user (code.obj i.call.target) =
          (code.step i.loc ((e.state m).fine.cfg.shared.world.user (code.obj i.call.target))).2 := by
    intro m i hm hi
    obtain ⟨m', hm', h⟩ := hin t m (fun m' hm' => H m' (by omega))
    obtain ⟨d, rfl⟩ := Nat.exists_eq_add_of_le hm'
    exact B.works H d m i hm hi h
  obtain ⟨l2, v2, hgo, hr⟩ := hret i.call i.entry
  have hgo' := Spec.Goes.through ((B.inv m0).goes t i hi) hgo hr
  have main : ∀ {l v}, Goes code i.loc ((e.state m0).fine.cfg.shared.world.user (code.obj i.call.target)) l v →
      ∃ m, m0 ≤ m ∧ (e.state m).fine.inside t = some { i with loc := l } ∧
        (e.state m).fine.cfg.shared.world.user (code.obj i.call.target) = v := by
    intro l v h
    induction h with
    | refl => exact ⟨m0, Nat.le_refl _, hi, rfl⟩
    | tail _ _ ih =>
      obtain ⟨m, hm, h1, h2⟩ := ih
      obtain ⟨m1, hm1, _, h3, h4⟩ := next m _ hm h1
      dsimp only at h3 h4
      rw [h2] at h3 h4
      exact ⟨m1 + 1, by omega, h3, h4⟩
  obtain ⟨m, hm, h1, _⟩ := main hgo'
  obtain ⟨_, _, h3, _⟩ := next m _ hm h1
  obtain ⟨r, hr⟩ := hr
  dsimp only at h3
  rw [h3] at hr; cases hr

/-- Somebody who releases a handler's mutex leaves it free. -/
theorem app_step {s s' : Whole code} {lb : Option (TcpLabel (HandlerId → τ))} (hI : MInv env s.fine)
    (st : Whole.Moves code env p s lb s') {a : Nat} {o : HandlerId} {x : τ} (ha : s.fine.app a = some (o, x)) :
    s'.fine.app a = some (o, x) ∨ s'.fine.free o := by
  rcases st with st | ⟨rfl, rfl⟩
  rotate_left
  · exact .inl ha
  cases st with
  | socket lb a' st hl ho => exact .inl ha
  | handler lb f st hl =>
    cases st with
    | outer | enter | poisoned | work | leave | appWork | appPanic => exact .inl ha
    | appEnter a' h ha' hf =>
      have hne : a ≠ a' := fun e => by subst e; rw [ha] at ha'; cases ha'
      exact .inl ((upd_ne _ _ hne).trans ha)
    | appLeave a' h y ha' =>
      by_cases hne : a = a'
      · subst hne
        refine .inr ⟨fun t i hi e => hI.mixed t i a x hi (by rw [e]; exact ha), fun b y' hb => ?_⟩
        by_cases e : b = a
        · subst e
          dsimp only at hb
          rw [upd_self] at hb; cases hb
        · dsimp only at hb
          rw [upd_ne _ _ e] at hb
          exact e (hI.oneApp b a o _ _ hb ha)
      · exact .inl ((upd_ne _ _ hne).trans ha)
    | appCrash a' h y ha' =>
      by_cases hne : a = a'
      · subst hne
        refine .inr ⟨fun t i hi e => hI.mixed t i a x hi (by rw [e]; exact ha), fun b y' hb => ?_⟩
        by_cases e : b = a
        · subst e
          dsimp only at hb
          rw [upd_self] at hb; cases hb
        · dsimp only at hb
          rw [upd_ne _ _ e] at hb
          exact e (hI.oneApp b a o _ _ hb ha)
      · exact .inl ((upd_ne _ _ hne).trans ha)

theorem left_free {s s' : Whole code} {lb : Option (TcpLabel (HandlerId → τ))} (hI : MInv env s.fine)
    (st : Whole.Moves code env p s lb s') {t : Nat} {i : Inside code} (hi : s.fine.inside t = some i)
    (hn : s'.fine.inside t = none) : s'.fine.free (code.obj i.call.target) := by
  rcases st with st | ⟨rfl, rfl⟩
  rotate_left
  · rw [hi] at hn; cases hn
  cases st with
  | socket lb a' st hl ho => dsimp only at hn; rw [hi] at hn; cases hn
  | handler lb f st hl =>
    cases st with
    | outer | poisoned | appWork | appEnter | appLeave | appCrash | appPanic =>
      first
        | (dsimp only [Fine.setObj] at hn; rw [hi] at hn; cases hn)
    | enter t' f g k c cont ht hk hc hr hi' hf hp =>
      have hne : t ≠ t' := fun e => by subst e; rw [hi] at hi'; cases hi'
      dsimp only at hn
      rw [upd_ne _ _ hne, hi] at hn; cases hn
    | work t' i' ht' hr' =>
      dsimp only [Fine.setObj] at hn
      by_cases e : t = t'
      · subst e; rw [upd_self] at hn; cases hn
      · rw [upd_ne _ _ e, hi] at hn; cases hn
    | leave t' f i' r ht' hf hr' =>
      by_cases e : t = t'
      · subst e
        refine ⟨fun u j hj he => ?_, fun a x ha => hI.mixed t i a x hi ha⟩
        by_cases e : u = t
        · subst e
          dsimp only at hj
          rw [upd_self] at hj; cases hj
        · dsimp only at hj
          rw [upd_ne _ _ e] at hj
          exact e (hI.one u t j i hj hi he)
      · dsimp only at hn
        rw [upd_ne _ _ e, hi] at hn; cases hn

/-- A handler's mutex is free again and again, if programs inside handler code are not left alone. -/
theorem Behind.frees_of (B : Behind e e') (hret : Returns code)
    (hin : ∀ t n, (∀ m, n ≤ m → (e.state m).fine.inside t ≠ none) →
      ∃ m, n ≤ m ∧ Acts t (e.state m) (e.label m) (e.state (m + 1)))
    (happs : ∀ a n, ∃ m, n ≤ m ∧ (e.state m).fine.app a = none) (o : HandlerId) (n : Nat) :
    ∃ m, n ≤ m ∧ (e.state m).fine.free o := by
  by_cases h1 : ∃ t i, (e.state n).fine.inside t = some i ∧ code.obj i.call.target = o
  · obtain ⟨t, i, hi, rfl⟩ := h1
    obtain ⟨m, hm, hn⟩ := B.leaves_of hret hin hi
    obtain ⟨d, rfl⟩ := Nat.exists_eq_add_of_le hm
    have : ∀ d n i', (e.state n).fine.inside t = some i' → code.obj i'.call.target = code.obj i.call.target →
        (e.state (n + d)).fine.inside t = none → ∃ m, n ≤ m ∧ (e.state m).fine.free (code.obj i.call.target) := by
      intro d
      induction d with
      | zero => intro n i' hi' _ h; rw [Nat.add_zero, hi'] at h; cases h
      | succ d ih =>
        intro n i' hi' he h
        rw [show n + (d + 1) = n + 1 + d from by omega] at h
        cases hj : (e.state (n + 1)).fine.inside t with
        | none => exact ⟨n + 1, by omega, he ▸ left_free (B.inv n) (e.step n) hi' hj⟩
        | some j =>
          have : j.call = i'.call := by
            rcases inside_step (B.inv n) (B.covered n) (e.step n) hi' with ⟨h, _⟩ | ⟨_, ⟨h, _⟩ | ⟨_, h, _⟩⟩
            · rw [hj] at h; cases h
            · rw [hj] at h; cases h; rfl
            · rw [hj] at h; cases h; rfl
          obtain ⟨m, hm, hf⟩ := ih (n + 1) j hj (by rw [this]; exact he) h
          exact ⟨m, by omega, hf⟩
    exact this d n i hi rfl hn
  by_cases h2 : ∃ a x, (e.state n).fine.app a = some (o, x)
  · obtain ⟨a, x, ha⟩ := h2
    obtain ⟨m, hm, hn⟩ := happs a n
    obtain ⟨d, rfl⟩ := Nat.exists_eq_add_of_le hm
    have : ∀ d n, (e.state n).fine.app a = some (o, x) → (e.state (n + d)).fine.app a = none →
        ∃ m, n ≤ m ∧ (e.state m).fine.free o := by
      intro d
      induction d with
      | zero => intro n hi' h; rw [Nat.add_zero, hi'] at h; cases h
      | succ d ih =>
        intro n hi' h
        rw [show n + (d + 1) = n + 1 + d from by omega] at h
        rcases app_step (B.inv n) (e.step n) hi' with h' | h'
        · obtain ⟨m, hm, hf⟩ := ih (n + 1) h' h
          exact ⟨m, by omega, hf⟩
        · exact ⟨n + 1, by omega, h'⟩
    exact this d n ha hn
  exact ⟨n, Nat.le_refl _, fun t i hi he => h1 ⟨t, i, hi, he⟩, fun a x ha => h2 ⟨a, x, ha⟩⟩

/-- In a fair execution a program inside handler code is not left alone. -/
theorem Behind.inside_moves (B : Behind e e') (hfair : e.Fair) (t n : Nat) (H : ∀ m, n ≤ m → (e.state m).fine.inside t ≠ none) :
    ∃ m, n ≤ m ∧ Acts t (e.state m) (e.label m) (e.state (m + 1)) := by
  obtain ⟨m, hm, h⟩ := hfair.tasks t n
  rcases h with h | h
  · exact ⟨m, hm, h⟩
  · cases hj : (e.state m).fine.inside t with
    | none => exact absurd hj (H _ hm)
    | some j => exact absurd (B.inside_acts hj) h

/-- Handler code that always returns is left. -/
theorem Behind.leaves (B : Behind e e') (hret : Returns code) (hfair : e.Fair) {t m0 : Nat} {i : Inside code}
    (hi : (e.state m0).fine.inside t = some i) : ∃ m, m0 ≤ m ∧ (e.state m).fine.inside t = none :=
  B.leaves_of hret (B.inside_moves hfair) hi

/-- A handler's mutex is free again and again. -/
theorem Behind.frees (B : Behind e e') (hret : Returns code) (hfair : e.Fair) (o : HandlerId) (n : Nat) :
    ∃ m, n ≤ m ∧ (e.state m).fine.free o :=
  B.frees_of hret (B.inside_moves hfair) hfair.apps o n

/-- The call a program makes does not change while the program does not move and has the used devices for reading. -/
theorem tcp_call_keeps {σ} {env : Env σ} {p : Profile} {s s' : Tcp σ} {lb : TcpLabel σ} (hI : Tame s.cfg)
    (st : Tcp.Step env p s lb s') {t : Nat} (hl : ∀ l, lb = .server l → prog l ≠ some t) {f : Flight σ}
    (hf : s.cfg.flights t = some f) (hh : f.held .used = some .r) : s'.cfg.call p f = s.cfg.call p f := by
  have key : ∀ s' : Cfg σ, s'.shared.used = s.cfg.shared.used → (∀ c, f.owner = some c → s'.conns c = s.cfg.conns c) →
      s'.call p f = s.cfg.call p f := by
    intro s' h1 h2
    unfold Cfg.call
    cases ho : f.owner with
    | none => rfl
    | some c => simp only [Option.bind_some, h2 c ho, h1]
  have hf' := (tcp_flights_other st hl).trans hf
  cases st with
  | connect c hc =>
    refine key _ rfl (fun c' ho => setConn_ne (fun e => ?_))
    subst e
    obtain ⟨x, hx⟩ := hI.owner t f c' hf ho
    rw [hc] at hx; cases hx
  | arrive c bs h he => rfl
  | hangup c e h he => rfl
  | take c x bs rest hc hi hb =>
    exact key _ rfl (fun c' ho => setConn_ne (fun e => by subst e; exact hi t f hf ho))
  | iterate t' c wr x ht hc hr hi hd => rfl
  | iterateEnd t' c wr x e ht hc hr hi he hb => rfl
  | piece t' c f k y bs ht ho hk hy hp => rfl
  | sent t' c f k y ht ho hk hy hp => rfl
  | other lb cfg' st h1 h2 h3 =>
    refine key _ ?_ (fun c ho => hI.conn st hf' hf ho)
    cases st <;> try rfl
    case putUsed t' f' v k ht' hk =>
      have hne : t ≠ t' := fun e => hl _ rfl (by rw [e]; rfl)
      have := hI.excl t t' f f' hne hf ht' (hI.put t' f' v k ht' hk)
      rw [hh] at this; cases this

theorem Behind.unlabelled (B : Behind e e') {m t : Nat} (h : ∀ lb, e'.label m = .server lb → prog lb ≠ some t) :
    ∀ l, e.label m = some (.server l) → prog l ≠ some t := by
  intro l hl
  refine h l ?_
  rw [B.label, hl]; rfl

/-- A program at its handler call can get further again and again. -/
theorem Behind.call_acts (B : Behind e e') (hret : Returns code)
    (hmov : ∀ t n, (∀ m, n ≤ m → (e.state m).fine.inside t ≠ none) →
      ∃ m, n ≤ m ∧ Acts t (e.state m) (e.label m) (e.state (m + 1)))
    (happs : ∀ a n, ∃ m, n ≤ m ∧ (e.state m).fine.app a = none) {t n : Nat} {f : Flight (HandlerId → τ)}
    {g : World (HandlerId → τ) → World (HandlerId → τ)} {k : World (HandlerId → τ) → Task (HandlerId → τ)}
    (hf : ∀ m, n ≤ m → (e.state m).fine.cfg.flights t = some f) (hk : f.code = .commit g k)
    (hno : ∀ m, n ≤ m → ∀ l, e'.label m = .server l → prog l ≠ some t)
    (hin : ∀ m, n ≤ m → (e.state m).fine.inside t = none) :
    ∀ m, n ≤ m → ∃ m', m ≤ m' ∧ ∃ lb s', Whole.Step code env p (e.state m') lb s' ∧ Acts t (e.state m') lb s' := by
  intro m hm
  have hcov := B.covered m t f g k (hf m hm) hk
  cases hc : (e.state m).fine.cfg.call p f with
  | none =>
    refine ⟨m, Nat.le_refl _, some (.server (.effect t f.ev)), _, .handler _ (some _) _ (.outer (e.state m).fine (.effect t f.ev) _
      (.commit (e.state m).fine.cfg t f g k (hf m hm) hk) ?_ (fun _ _ h => by cases h) ?_) trivial, .inl ⟨_, rfl, trivial, rfl⟩⟩
    · intro t' ht'
      simp only [prog, Option.some.injEq] at ht'
      subst ht'; exact hin m hm
    · intro t' ev f' he hf'
      simp only [Label.effect.injEq] at he
      obtain ⟨rfl, _⟩ := he
      rw [hf m hm] at hf'; cases hf'; exact hc
  | some c =>
    rw [hc] at hcov
    obtain ⟨hh, _⟩ := hcov
    obtain ⟨m', hm', hfree⟩ := B.frees_of hret hmov happs (code.obj c.target) m
    have hc' : (e.state m').fine.cfg.call p f = some c := by
      obtain ⟨d, rfl⟩ := Nat.exists_eq_add_of_le hm'
      clear hm' hfree
      induction d with
      | zero => exact hc
      | succ d ih =>
        rw [← ih]
        have h1 := tcp_call_keeps (tcp_tame (e'.reach (m + d))) (e'.step (m + d)) (hno (m + d) (by omega)) (f := f)
          (by rw [(B.cfg _).1]; exact hf _ (by omega)) hh
        have h2 : ∀ j, (e'.state j).cfg.call p f = (e.state j).fine.cfg.call p f := by
          intro j
          unfold Cfg.call
          rw [(B.cfg j).2.1, (B.cfg j).2.2.2.1]
        rw [h2, h2] at h1
        exact h1
    have hcov := B.covered m' t f g k (hf m' (by omega)) hk
    rw [hc'] at hcov
    obtain ⟨_, cont, hrun⟩ := hcov
    cases hp : crashed (e.state m').fine.cfg.shared.world c.target with
    | false =>
      refine ⟨m', hm', none, _, .handler _ none _ (.enter (e.state m').fine t f g k c cont (hf m' (by omega)) hk hc' hrun
        (hin m' (by omega)) hfree hp) trivial, .inr (.inl ⟨hin m' (by omega), ?_⟩)⟩
      dsimp only
      rw [upd_self]; simp
    | true =>
      exact ⟨m', hm', _, _, .handler _ (some _) _ (.poisoned (e.state m').fine t f g k c cont (hf m' (by omega)) hk hc' hrun
        (hin m' (by omega)) hp) trivial, .inl ⟨_, rfl, trivial, rfl⟩⟩

/-- A program that is at its handler call and does not move gets inside handler code. -/
theorem Behind.call_waits (B : Behind e e') (hret : Returns code) (hfair : e.Fair) {t n : Nat} {f : Flight (HandlerId → τ)}
    {g : World (HandlerId → τ) → World (HandlerId → τ)} {k : World (HandlerId → τ) → Task (HandlerId → τ)}
    (hf : ∀ m, n ≤ m → (e.state m).fine.cfg.flights t = some f) (hk : f.code = .commit g k)
    (hno : ∀ m, n ≤ m → ∀ l, e'.label m = .server l → prog l ≠ some t)
    (hin : ∀ m, n ≤ m → (e.state m).fine.inside t = none) : False := by
  have acts := B.call_acts hret (B.inside_moves hfair) hfair.apps hf hk hno hin
  obtain ⟨m, hm, h⟩ := hfair.mutexes t n (fun m hm => ⟨hin m hm, f, g, k, hf m hm, hk⟩) acts
  rcases h with ⟨l, h, _, hp⟩ | ⟨_, h⟩ | ⟨i, h, _⟩
  · exact B.unlabelled (hno m hm) l h hp
  · exact h (hin (m + 1) (by omega))
  · rw [hin m hm] at h; cases h

/-- The execution behind a fair execution is fair, if handler code always returns. -/
theorem Behind.fair (B : Behind e e') (hret : Returns code) (hfair : e.Fair) : e'.Fair := by
  refine ⟨fun t n => ?_, fun c n => ?_, fun c n => ?_, fun c _ n => ?_⟩
  · refine Classical.byContradiction fun hn => ?_
    have H1 : ∀ m, n ≤ m → ∀ l, e'.label m = .server l → prog l ≠ some t :=
      fun m hm l h hp => hn ⟨m, hm, .inl ⟨l, h, hp⟩⟩
    have H2 : ∀ m, n ≤ m → ∃ lb s', Tcp.Step env p (e'.state m) (.server lb) s' ∧ Advances lb ∧ prog lb = some t :=
      fun m hm => Classical.byContradiction fun h => hn ⟨m, hm, .inr h⟩
    obtain ⟨f, hf⟩ : ∃ f, (e'.state n).cfg.flights t = some f := by
      cases hfl : (e'.state n).cfg.flights t with
      | some f => exact ⟨f, rfl⟩
      | none =>
        obtain ⟨lb, s', st, ha, hp⟩ := H2 n (Nat.le_refl _)
        obtain ⟨a, b, st, ha', _⟩ := tcp_flightStep st
        obtain ⟨g, rfl, _⟩ := first_step st (by rw [ha']; exact hfl) hp
        exact absurd ha id
    have hfl : ∀ m, n ≤ m → (e.state m).fine.cfg.flights t = some f := by
      intro m hm
      obtain ⟨d, rfl⟩ := Nat.exists_eq_add_of_le hm
      clear hm
      rw [← (B.cfg _).1]
      induction d with
      | zero => exact hf
      | succ d ih => exact (tcp_flights_other (e'.step (n + d)) (H1 _ (by omega))).trans ih
    by_cases hk : ∃ g k, f.code = .commit g k
    · obtain ⟨g, k, hk⟩ := hk
      have hin : ∀ m, n ≤ m → (e.state m).fine.inside t = none := by
        intro m hm
        cases hi : (e.state m).fine.inside t with
        | none => rfl
        | some i =>
          exfalso
          obtain ⟨m', hm', h⟩ := B.leaves hret hfair hi
          obtain ⟨d, rfl⟩ := Nat.exists_eq_add_of_le hm'
          have : ∀ d, ∃ j, (e.state (m + d)).fine.inside t = some j := by
            intro d
            induction d with
            | zero => exact ⟨i, hi⟩
            | succ d ih =>
              obtain ⟨j, hj⟩ := ih
              rcases inside_step (B.inv _) (B.covered _) (e.step (m + d)) hj with ⟨_, ev, hl, _⟩ | ⟨_, ⟨h, _⟩ | ⟨_, h, _⟩⟩
              · exact absurd rfl (B.unlabelled (H1 (m + d) (by omega)) _ hl)
              · exact ⟨_, h⟩
              · exact ⟨_, h⟩
          obtain ⟨j, hj⟩ := this d
          rw [hj] at h; cases h
      exact B.call_waits hret hfair hfl hk H1 hin
    · have hin : ∀ m, n ≤ m → (e.state m).fine.inside t = none := by
        intro m hm
        cases hi : (e.state m).fine.inside t with
        | none => rfl
        | some i =>
          obtain ⟨f', g, k, hf', hk', _⟩ := (B.inv m).call t i hi
          rw [hfl m hm] at hf'; cases hf'
          exact absurd ⟨g, k, hk'⟩ hk
      have acts : ∀ m, n ≤ m → ∃ lb s', Whole.Step code env p (e.state m) lb s' ∧ Acts t (e.state m) lb s' := by
        intro m hm
        obtain ⟨lb, s', st, ha, hp⟩ := H2 m hm
        obtain ⟨s2, st2, _⟩ := B.back m st (by
          intro l hl ho
          cases hl
          cases lb with
          | effect t' ev =>
            simp only [prog, Option.some.injEq] at hp
            subst hp
            cases st with
            | other _ _ st =>
              cases st with
              | commit _ f' g k hf' hk' =>
                rw [(B.cfg m).1, hfl m hm] at hf'; cases hf'
                exact hk ⟨g, k, hk'⟩
          | outside ev => exact ha
          | start => exact ho
          | inner => exact ho
          | ended => exact ho
          | dropped => exact ho) (by
          intro l t' hl hp'
          cases hl
          rw [hp] at hp'; cases hp'
          exact hin m hm)
        exact ⟨_, s2, st2, .inl ⟨lb, rfl, ha, hp⟩⟩
      obtain ⟨m, hm, h⟩ := hfair.tasks t n
      rcases h with (⟨l, h, _, hp⟩ | ⟨_, h⟩ | ⟨i, h, _⟩) | h
      · exact B.unlabelled (H1 m hm) l h hp
      · exact h (hin (m + 1) (by omega))
      · rw [hin m hm] at h; cases h
      · exact h (acts m hm)
  · obtain ⟨m, hm, h⟩ := hfair.reads c n
    refine ⟨m, hm, ?_⟩
    rw [B.label, (B.cfg m).2.2.2.2.1, (B.cfg (m + 1)).2.2.2.2.1]
    rcases h with ⟨h1, h2⟩ | h
    · exact .inl ⟨by rw [h1]; rfl, h2⟩
    · refine .inr (fun ⟨s', st, hb⟩ => h ?_)
      obtain ⟨s2, st2, he⟩ := B.back m st (fun l e => by cases e) (fun l t e => by cases e)
      exact ⟨s2, st2, by rw [he]; exact hb⟩
  · obtain ⟨m, hm, h⟩ := hfair.loops c n
    refine ⟨m, hm, ?_⟩
    rw [B.label]
    rcases h with ⟨t, w, h⟩ | h
    · exact .inl ⟨t, w, by rw [h]; rfl⟩
    · refine .inr (fun ⟨t, w, s', st⟩ => h ?_)
      obtain ⟨s2, st2, he⟩ := B.back m st (fun l e => by cases e; exact id) (fun l u e hu => by
        cases e
        simp only [prog, Option.some.injEq] at hu
        subst hu
        cases hi : (e.state m).fine.inside t with
        | none => rfl
        | some i =>
          obtain ⟨f', g, k, hf', hk', _⟩ := (B.inv m).call t i hi
          rw [← (B.cfg m).1] at hf'
          cases st with
          | iterate _ _ _ _ ht => rw [ht] at hf'; cases hf'
          | iterateEnd _ _ _ _ _ ht => rw [ht] at hf'; cases hf'
          | other _ _ _ _ h2 => exact absurd rfl (h2 _ _ _))
      exact ⟨t, w, s2, st2⟩
  · obtain ⟨m, hm, h⟩ := hfair.clients c n
    refine ⟨m, hm, ?_⟩
    rw [B.label]
    rcases h with ⟨b, bs, h⟩ | h
    · exact .inl ⟨b, bs, by rw [h]; rfl⟩
    · refine .inr (fun ⟨b, s', st⟩ => h ?_)
      obtain ⟨s2, st2, he⟩ := B.back m st (fun l e => by cases e) (fun l t e => by cases e)
      exact ⟨b, s2, st2⟩

theorem Behind.faulted (B : Behind e e') {c m : Nat} {y : Conn} (h : Faulted e' c m y) : e.Faulted c m y := by
  obtain ⟨h1, k, hk, hf⟩ := h
  rw [B.label] at hf
  cases hl : e.label k with
  | none => rw [hl] at hf; exact absurd hf id
  | some lb => rw [hl] at hf; exact ⟨h1, k, lb, hk, hl, hf⟩

theorem Behind.conns_eq (B : Behind e e') (n c : Nat) : (e'.state n).cfg.conns c = (e.state n).fine.cfg.conns c :=
  congrFun (B.cfg n).2.1 c

theorem Behind.buf_eq (B : Behind e e') (n : Nat) : (e'.state n).buf = (e.state n).buf := (B.cfg n).2.2.2.2.1

theorem Behind.ended_eq (B : Behind e e') (n : Nat) : (e'.state n).ended = (e.state n).ended := (B.cfg n).2.2.2.2.2.1

theorem Behind.got_eq (B : Behind e e') (n : Nat) : (e'.state n).got = (e.state n).got := (B.cfg n).2.2.2.2.2.2

theorem Behind.idle_iff (B : Behind e e') {n c : Nat} : (e'.state n).cfg.idle c ↔ (e.state n).fine.cfg.idle c := by
  unfold Cfg.idle
  rw [(B.cfg n).1]

/-- A connection that is there stays. -/
theorem tcp_some {σ} {env : Env σ} {p : Profile} {s s' : Tcp σ} {lb : TcpLabel σ} (st : Tcp.Step env p s lb s')
    {c : Nat} (h : s'.cfg.conns c = none) : s.cfg.conns c = none := by
  have set : ∀ {c' : Nat} {x : Conn}, setConn s.cfg.conns c' x c = none → s.cfg.conns c = none := by
    intro c' x hh
    by_cases e : c = c'
    · simp [setConn, e] at hh
    · rwa [setConn_ne e] at hh
  cases st with
  | connect c' hc => exact set h
  | take c' x bs rest hc hi hb => exact set h
  | other lb cfg' st h1 h2 h3 => exact step_none st h
  | _ => exact h

theorem Behind.stays (B : Behind e e') {n c : Nat} (h : (e.state n).fine.cfg.conns c ≠ none) :
    ∀ m, n ≤ m → (e.state m).fine.cfg.conns c ≠ none := by
  intro m hm
  obtain ⟨d, rfl⟩ := Nat.exists_eq_add_of_le hm
  clear hm
  induction d with
  | zero => exact h
  | succ d ih =>
    intro hn
    refine ih ?_
    rw [← B.conns_eq] at hn ⊢
    exact tcp_some (e'.step (n + d)) hn

theorem Behind.connects (B : Behind e e') {n c : Nat} {i : Stream} (h : e.label n = some (.server (.outside (.connect c i)))) :
    (e.state n).fine.cfg.conns c = none ∧ (e.state (n + 1)).fine.cfg.conns c ≠ none := by
  have st := e'.step n
  rw [B.label, h] at st
  rw [← B.conns_eq, ← B.conns_eq]
  generalize e'.state (n + 1) = s2 at st
  cases st with
  | connect _ hc => exact ⟨hc, by simp [setConn]⟩
  | other _ cfg' st h1 => exact absurd rfl (h1 c i)

/-- While no program runs and none starts, the connections go on as they are. -/
theorem tcp_calm {σ} {env : Env σ} {p : Profile} {s s' : Tcp σ} {lb : TcpLabel σ} (st : Tcp.Step env p s lb s')
    (hf : ∀ t, s.cfg.flights t = none) (hs : ∀ t ev, lb ≠ .server (.start t ev)) {c : Nat} {x : Conn}
    (hx : s.cfg.conns c = some x) :
    (∀ t, s'.cfg.flights t = none) ∧ ∃ y, s'.cfg.conns c = some y ∧ y.served = x.served := by
  cases st with
  | connect c' h =>
    refine ⟨hf, x, ?_, rfl⟩
    have : c ≠ c' := by rintro rfl; rw [h] at hx; cases hx
    simp only [setConn_ne this]; exact hx
  | arrive | hangup => exact ⟨hf, x, hx, rfl⟩
  | take c' x' bs rest hc hi hb =>
    refine ⟨hf, ?_⟩
    by_cases h : c = c'
    · subst h
      rw [hx] at hc; cases hc
      exact ⟨{ x with input := ⟨x.input.bytes ++ bs, x.input.fin⟩ }, by simp [setConn], rfl⟩
    · exact ⟨x, by simp only [setConn_ne h]; exact hx, rfl⟩
  | iterate t c w => exact absurd rfl (hs t (.iterate c w))
  | iterateEnd t c w => exact absurd rfl (hs t (.iterate c w))
  | piece t _ f _ _ _ ht => rw [hf t] at ht; cases ht
  | sent t _ f _ _ ht => rw [hf t] at ht; cases ht
  | other lb cfg' st h1 h2 h3 =>
    cases st with
    | cancel c' x' hc hr hi =>
      refine ⟨hf, ?_⟩
      by_cases h : c = c'
      · subst h
        rw [hx] at hc; cases hc
        exact ⟨{ x with status := .cancelled }, by simp [setConn], rfl⟩
      · exact ⟨x, by simp only [setConn_ne h]; exact hx, rfl⟩
    | _ => first
      | exact ⟨hf, x, hx, rfl⟩
      | exact absurd rfl (hs _ _)
      | (rename_i ht _; rw [hf] at ht; cases ht)
      | (rename_i ht; rw [hf] at ht; cases ht)
      | simp_all

/-- A connection that serves a command is one for which a program was started. -/
theorem Behind.started (B : Behind e e') {n m c : Nat} {x y : Conn} (hf : ∀ t, (e.state n).fine.cfg.flights t = none)
    (hx : (e.state n).fine.cfg.conns c = some x) (hm : n ≤ m) (hy : (e.state m).fine.cfg.conns c = some y)
    (hne : y.served ≠ x.served) : ∃ k t ev, n ≤ k ∧ e.label k = some (.server (.start t ev)) := by
  refine Classical.byContradiction fun hno => ?_
  have H : ∀ d, (∀ t, (e'.state (n + d)).cfg.flights t = none) ∧
      ∃ z, (e'.state (n + d)).cfg.conns c = some z ∧ z.served = x.served := by
    intro d
    induction d with
    | zero => exact ⟨fun t => by rw [(B.cfg _).1]; exact hf t, x, by rw [B.conns_eq]; exact hx, rfl⟩
    | succ d ih =>
      obtain ⟨h1, z, h2, h3⟩ := ih
      obtain ⟨k1, z', k2, k3⟩ := tcp_calm (e'.step (n + d)) h1 (fun t ev hl => by
        rw [B.label] at hl
        cases hle : e.label (n + d) with
        | none => rw [hle] at hl; simp at hl
        | some lb => rw [hle] at hl; exact hno ⟨n + d, t, ev, by omega, by rw [hle]; exact congrArg some hl⟩) h2
      exact ⟨k1, z', k2, k3.trans h3⟩
  obtain ⟨d, rfl⟩ := Nat.exists_eq_add_of_le hm
  obtain ⟨_, z, h2, h3⟩ := H d
  rw [B.conns_eq, hy] at h2
  cases h2
  exact hne h3

theorem Behind.no_waits (B : Behind e e') (hno : ∀ n t f i m k, (e.state n).fine.cfg.flights t = some f →
    f.ev = .removeDevice i → f.code ≠ .lock .used m k) : ∀ n t f i m k, (e'.state n).cfg.flights t = some f →
    f.ev = .removeDevice i → f.code ≠ .lock .used m k := fun n t f i m k hf => hno n t f i m k ((B.cfg n).1 ▸ hf)

/-- If `remove_device` is never called, no call of it waits. -/
theorem Behind.no_removals (B : Behind e e') (h : ∀ n t i, e.label n ≠ some (.server (.start t (.removeDevice i)))) :
    ∀ n t f i m k, (e.state n).fine.cfg.flights t = some f → f.ev = .removeDevice i → f.code ≠ .lock .used m k := by
  intro n t f i m k hf
  refine e'.no_removals (fun n t i hl => ?_) n t f i m k ((B.cfg n).1 ▸ hf)
  rw [B.label] at hl
  cases hle : e.label n with
  | none => rw [hle] at hl; simp at hl
  | some lb => rw [hle] at hl; exact h n t i (by rw [hle]; exact congrArg some hl)

end

/-- What stays the same while a program at its handler call does not move. -/
theorem tcp_inside_keeps {σ} {env : Env σ} {p : Profile} {s s' : Tcp σ} {lb : TcpLabel σ} (hI : Tame s.cfg)
    (st : Tcp.Step env p s lb s') {t c : Nat} (hl : ∀ l, lb = .server l → prog l ≠ some t) {f : Flight σ}
    (hf : s.cfg.flights t = some f) (hh : f.held .used = some .r) (ho : f.owner = some c)
    {g : World σ → World σ} {k : World σ → Task σ} (hk : f.code = .commit g k) :
    s'.cfg.conns c = s.cfg.conns c ∧ s'.got c = s.got c ∧ s'.cfg.shared.used = s.cfg.shared.used := by
  have hf' := (tcp_flights_other st hl).trans hf
  cases st with
  | connect c' hc =>
    refine ⟨setConn_ne (fun e => ?_), rfl, rfl⟩
    subst e
    obtain ⟨x, hx⟩ := hI.owner t f c hf ho
    rw [hc] at hx; cases hx
  | arrive c' bs h he => exact ⟨rfl, rfl, rfl⟩
  | hangup c' e h he => exact ⟨rfl, rfl, rfl⟩
  | take c' x bs rest hc hi hb =>
    exact ⟨setConn_ne (fun e => by subst e; exact hi t f hf ho), rfl, rfl⟩
  | iterate t' c wr x ht hc hr hi hd => exact ⟨rfl, rfl, rfl⟩
  | iterateEnd t' c wr x e ht hc hr hi he hb => exact ⟨rfl, rfl, rfl⟩
  | piece t' c' f2 k2 y bs ht ho2 hk2 hy hp =>
    refine ⟨rfl, upd_ne _ _ (fun e => ?_), rfl⟩
    subst e
    have : t = t' := hI.owners t t' f f2 c hf ht ho ho2
    subst this
    rw [hf] at ht; cases ht
    rw [hk] at hk2; cases hk2
  | sent t' c' f2 k2 y ht ho hk hy hp => exact ⟨rfl, rfl, rfl⟩
  | other lb cfg' st h1 h2 h3 =>
    refine ⟨hI.conn st hf' hf ho, rfl, ?_⟩
    cases st <;> try rfl
    case putUsed t' f' v k ht' hk =>
      have hne : t ≠ t' := fun e => hl _ rfl (by rw [e]; rfl)
      have := hI.excl t t' f f' hne hf ht' (hI.put t' f' v k ht' hk)
      rw [hh] at this; cases this

/-- From a state in which nobody uses a handler, every execution on sockets (in which the application does
not act) is one in which handler code runs step by step. -/
theorem lift_from {τ} {code : Code τ} {env : Env (HandlerId → τ)} (hb : Behaves code env) (hret : Returns code)
    {p : Profile} {devices : List Device} {w : World (HandlerId → τ)} {s0 : Whole code}
    {ls0 ls : List (TcpLabel (HandlerId → τ))} {a : Tcp (HandlerId → τ)}
    (h0 : Tcp.Reach env p (Tcp.init devices w) ls0 s0.tcp) (hin0 : ∀ t, s0.fine.inside t = none)
    (hap0 : ∀ x, s0.fine.app x = none) (hr : Tcp.Reach env p s0.tcp ls a)
    (hu' : ∀ f crash, .server (.outside (.user f crash)) ∉ ls) :
    ∃ s : Whole code, Whole.Reach code env p s0 ls s ∧ s.tcp = a ∧
      (∀ t, s.fine.inside t = none) ∧ ∀ x, s.fine.app x = none := by
  induction hr with
  | refl => exact ⟨_, .refl, rfl, hin0, hap0⟩
  | @tail ls a lb a' h st ih =>
    obtain ⟨s, hs, rfl, hin, hap⟩ := ih (fun f cr hf => hu' f cr (List.mem_append_left _ hf))
    have hC : Covered env p s.fine.cfg := fun t f g k ht hk => tcp_covered (h0.trans h) t f g k ht hk
    have hfree : ∀ o, s.fine.free o :=
      fun o => ⟨fun t i ht => by rw [hin t] at ht; simp at ht, fun x e hx => by rw [hap x] at hx; simp at hx⟩
    by_cases hl : ∃ l, lb = .server l ∧ ofHandlers (some l)
    · obtain ⟨l, rfl, hl⟩ := hl
      have viaFine : ∀ (f' : Fine code), Fine.Reach code env p s.fine [l] f' → f'.inside = s.fine.inside →
          f'.app = s.fine.app → ({ s with fine := f' } : Whole code).tcp = a' →
          ∃ s : Whole code, Whole.Reach code env p s0 (ls ++ [.server l]) s ∧ s.tcp = a' ∧
            (∀ t, s.fine.inside t = none) ∧ ∀ x, s.fine.app x = none := by
        intro f' hf e1 e2 e3
        refine ⟨_, hs.trans (lift_fine s hf (fun l' hm => by rw [List.mem_singleton.mp hm]; exact hl)), e3, ?_, ?_⟩
        · intro t; dsimp only; rw [e1]; exact hin t
        · intro t; dsimp only; rw [e2]; exact hap t
      cases st with
      | connect c hc => exact absurd hl id
      | iterate => exact absurd hl id
      | iterateEnd => exact absurd hl id
      | sent => exact absurd hl id
      | other _ cfg' st h1 h2 h3 =>
        cases st with
        | user f crash => exact absurd (by simp) (hu' f crash)
        | commit t f g k ht hk =>
          cases hc : s.fine.cfg.call p f with
          | some c => exact viaFine _ (call_reach hb hret hC ht hk hc (hin t) (hfree _)) rfl rfl rfl
          | none =>
            refine viaFine _ (Fine.Reach.one (.outer s.fine (.effect t f.ev) _
              (.commit s.fine.cfg t f g k ht hk) (fun u _ => hin u) (fun _ _ e => by simp at e) ?_)) rfl rfl rfl
            intro u ev f' e hf'
            simp only [Label.effect.injEq] at e
            obtain ⟨rfl, _⟩ := e
            have : s.fine.cfg.flights t = some f := ht
            rw [this] at hf'; cases hf'; exact hc
        | connect | iterate | add | remove | request | grant | unlock | getUsed | getAvail | putUsed | putAvail | send
        | finish | abandon | cancel => exact absurd hl id
    · exact ⟨_, hs.tail (.socket s lb a' st (fun l e ho => hl ⟨l, e, ho⟩) (fun l t _ _ => hin t)), rfl, hin, hap⟩

/-- One step before an execution. -/
def Spec.WholeExec.cons {τ} {code : Code τ} {env : Env (HandlerId → τ)} {p : Profile} {s s' : Whole code}
    {lb : Option (TcpLabel (HandlerId → τ))} (st : Whole.Step code env p s lb s') (e : WholeExec code env p s') :
    WholeExec code env p s where
  state n := match n with | 0 => s | n + 1 => e.state n
  label n := match n with | 0 => lb | n + 1 => e.label n
  init := rfl
  step n := match n with
    | 0 => by dsimp only; rw [e.init]; exact .inl st
    | n + 1 => e.step n

/-- Nothing happens any more. -/
def Spec.WholeExec.rest {τ} (code : Code τ) (env : Env (HandlerId → τ)) (p : Profile) (s : Whole code) :
    WholeExec code env p s where
  state _ := s
  label _ := none
  init := rfl
  step _ := .inr ⟨rfl, rfl⟩

theorem Spec.WholeExec.after {τ} {code : Code τ} {env : Env (HandlerId → τ)} {p : Profile} {s0 s : Whole code}
    {ls : List (TcpLabel (HandlerId → τ))} (h : Whole.Reach code env p s0 ls s) :
    ∀ e : WholeExec code env p s, ∃ (N : Nat) (e' : WholeExec code env p s0),
      (∀ k, e'.state (N + k) = e.state k) ∧ (∀ k, e'.label (N + k) = e.label k) ∧
      ∀ k, k < N → ∀ lb, e'.label k = some lb → lb ∈ ls := by
  induction h with
  | refl => exact fun e => ⟨0, e, fun k => by simp, fun k => by simp, fun k hk => by simp at hk⟩
  | @tail ls s lb s' h st ih =>
    intro e
    obtain ⟨N, e', h1, h2, h3⟩ := ih (e.cons st)
    refine ⟨N + 1, e', fun k => ?_, fun k => ?_, fun k hk l hl => ?_⟩
    · rw [Nat.add_assoc, Nat.add_comm 1 k, h1]; rfl
    · rw [Nat.add_assoc, Nat.add_comm 1 k, h2]; rfl
    · by_cases hlt : k < N
      · exact List.mem_append_left _ (h3 k hlt l hl)
      · have : k = N := by omega
        subst this
        rw [show e'.label k = e'.label (k + 0) from rfl, h2] at hl
        have : lb = some l := hl
        simp [this]

/-- A step of a state in which there is no program. -/
theorem quiet_acts {τ} {code : Code τ} {env : Env (HandlerId → τ)} {p : Profile} {s s' : Whole code}
    {lb : Option (TcpLabel (HandlerId → τ))} (hfl : ∀ t, s.fine.cfg.flights t = none) (hin : ∀ t, s.fine.inside t = none)
    (st : Whole.Step code env p s lb s') (t : Nat) : ¬ Acts t s lb s' := by
  have key : ∀ (cfg' : Cfg (HandlerId → τ)) (l : Label (HandlerId → τ)), Cfg.Step env p s.fine.cfg l cfg' → Advances l →
      prog l = some t → False := by
    intro cfg' l st ha hp
    obtain ⟨g, rfl, _⟩ := first_step st (hfl t) hp
    exact ha
  rintro (⟨l, rfl, ha, hp⟩ | ⟨_, h⟩ | ⟨i, h, _⟩)
  · generalize hlab : (some (TcpLabel.server l)) = ol at st
    cases st with
    | socket lb a st hl ho =>
      cases hlab
      obtain ⟨a', b', st, ha', _⟩ := tcp_flightStep st
      obtain ⟨g, rfl, _⟩ := first_step st (by rw [ha']; exact hfl t) hp
      exact ha
    | handler lb f st hl =>
      cases st with
      | outer lb cfg' st =>
        simp only [Option.map_some, Option.some.injEq, TcpLabel.server.injEq] at hlab
        subst hlab
        exact key _ _ st ha hp
      | poisoned t' f g k c cont ht => rw [hfl t'] at ht; cases ht
      | leave t' f i r ht => rw [hin t'] at ht; cases ht
      | appLeave a o e ha' => cases hlab; cases hp
      | appCrash a o e ha' => cases hlab; cases hp
      | appPanic o hf => cases hlab; cases hp
      | _ => cases hlab
  · refine h ?_
    cases st with
    | socket => exact hin t
    | handler lb f st hl =>
      cases st with
      | enter t' f g k c cont ht => rw [hfl t'] at ht; cases ht
      | work t' i ht => rw [hin t'] at ht; cases ht
      | leave t' f i r ht => rw [hin t'] at ht; cases ht
      | _ => exact hin t
  · rw [hin t] at h; cases h

/-- Steps on sockets are steps on sockets. -/
theorem whole_tcp_step {τ} {code : Code τ} {env : Env (HandlerId → τ)} {p : Profile} {s s' : Whole code}
    {lb : TcpLabel (HandlerId → τ)} (st : Whole.Step code env p s (some lb) s')
    (h : ∀ l, lb = .server l → ¬ ofHandlers (some l)) : Tcp.Step env p s.tcp lb s'.tcp := by
  generalize hlab : some lb = ol at st
  cases st with
  | socket lb a st hl ho => cases hlab; exact st
  | handler lb' f st hl =>
    cases lb' with
    | none => cases hlab
    | some l =>
      simp only [Option.map_some, Option.some.injEq] at hlab
      exact absurd hl (h l hlab)

/-- An execution that comes to rest is fair if then nothing is left to do. -/
theorem Spec.WholeExec.rest_fair {τ} {code : Code τ} {env : Env (HandlerId → τ)} {p : Profile} {s0 s : Whole code}
    (e : WholeExec code env p s0) (N : Nat) (hs : ∀ m, N ≤ m → e.state m = s)
    (hfl : ∀ t, s.fine.cfg.flights t = none) (hin : ∀ t, s.fine.inside t = none) (hap : ∀ a, s.fine.app a = none)
    (reads : ∀ c x, s.fine.cfg.conns c = some x → s.buf c = [])
    (loops : ∀ c x, s.fine.cfg.conns c = some x → x.status ≠ .running) : e.Fair := by
  refine ⟨fun t n => ⟨max n N, by omega, .inr ?_⟩, fun t n h => ?_, fun a n => ⟨max n N, by omega, ?_⟩,
    fun c n => ⟨max n N, by omega, .inr ?_⟩, fun c n => ⟨max n N, by omega, .inr ?_⟩, fun c n => ⟨max n N, by omega, .inr ?_⟩⟩
  · rw [hs _ (by omega)]
    rintro ⟨lb, s', st, ha⟩; exact quiet_acts hfl hin st t ha
  · obtain ⟨_, f, g, k, hf, _⟩ := h (max n N) (by omega)
    rw [hs _ (by omega), hfl] at hf; cases hf
  · rw [hs _ (by omega)]; exact hap a
  · rw [hs _ (by omega)]
    rintro ⟨s', st, hb⟩
    refine hb ?_
    have st := whole_tcp_step st (fun l e => by cases e)
    generalize ht : s'.tcp = s2 at st
    cases st with
    | take _ x bs rest hc hi hbuf =>
      have h0 : s.buf c = [] := reads c x hc
      have hbuf' : s.buf c = bs ++ rest := hbuf
      rw [h0] at hbuf'
      obtain ⟨_, h2⟩ := List.append_eq_nil_iff.1 hbuf'.symm
      have : s'.buf = upd s.buf c rest := congrArg Tcp.buf ht
      rw [this, upd_self, h2, h0]
  · rw [hs _ (by omega)]
    rintro ⟨t, w, s', st⟩
    have st := whole_tcp_step st (fun l e => by cases e; exact id)
    generalize s'.tcp = s2 at st
    cases st with
    | iterate _ _ _ x ht hc hr hi hd => exact loops c x hc hr
    | iterateEnd _ _ _ x e ht hc hr hi he hb => exact loops c x hc hr
    | other _ _ st h1 h2 h3 => exact h2 _ _ _ rfl
  · rw [hs _ (by omega)]
    rintro ⟨b, s', st⟩
    have st := whole_tcp_step st (fun l e => by cases e)
    generalize s'.tcp = s2 at st
    cases st with
    | piece t _ f k y bs ht ho hk hy hp =>
      have := hfl t
      have ht' : s.fine.cfg.flights t = some f := ht
      rw [this] at ht'; cases ht'

end Usbip
