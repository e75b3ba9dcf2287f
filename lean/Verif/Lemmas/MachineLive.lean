import Verif.Lemmas.Machine
import Verif.Lemmas.WholeLive
/-! Helper lemmas: infinite executions of a process with calls of `server`. -/

namespace Usbip
open Spec

section
variable {τ : Type} {code : Code τ} {env : Env (HandlerId → τ)} {p : Profile} {devices : List Device}
  {w : World (HandlerId → τ)}

theorem exec_inv (hb : Behaves code env) (e : MachineExec code env p (Machine.init code devices w)) (n : Nat) :
    ∃ ls, KInv code env p devices w ls (e.state n) := by
  induction n with
  | zero => exact ⟨[], by rw [e.init]; exact .init code env p devices w⟩
  | succ n ih =>
    obtain ⟨ls, h⟩ := ih
    rcases e.step n with st | ⟨_, h'⟩
    · exact ⟨_, h.step hb st⟩
    · exact ⟨ls, by rw [h']; exact h⟩

/-- The labels of the three steps of the server that make one of the process. -/
def label0 : Option (MachineLabel (HandlerId → τ)) → Option (TcpLabel (HandlerId → τ))
  | some (.accept _ c _ _) => some (.server (.outside (.connect c ⟨[], .unexpectedEof⟩)))
  | lb => inServer lb

def label1 : Option (MachineLabel (HandlerId → τ)) → Option (TcpLabel (HandlerId → τ))
  | some (.accept _ c bs _) => some (.arrive c bs)
  | _ => none

def label2 : Option (MachineLabel (HandlerId → τ)) → Option (TcpLabel (HandlerId → τ))
  | some (.accept _ c _ (some er)) => some (.hangup c er)
  | _ => none

/-- The states between them. -/
def mid1 (s : Machine code) (lb : Option (MachineLabel (HandlerId → τ))) (s' : Machine code) : Whole code :=
  match lb with
  | some (.accept _ c _ _) => opened s.whole c
  | _ => s'.whole

def mid2 (s : Machine code) (lb : Option (MachineLabel (HandlerId → τ))) (s' : Machine code) : Whole code :=
  match lb with
  | some (.accept _ c bs _) => spoken s.whole c bs
  | _ => s'.whole

theorem unfold_steps (hb : Behaves code env) {ls : List (MachineLabel (HandlerId → τ))} {s s' : Machine code}
    {lb : Option (MachineLabel (HandlerId → τ))} (h : KInv code env p devices w ls s)
    (st : Machine.Step code env p s lb s' ∨ (lb = none ∧ s' = s)) :
    Whole.Moves code env p s.whole (label0 lb) (mid1 s lb s') ∧
    Whole.Moves code env p (mid1 s lb s') (label1 lb) (mid2 s lb s') ∧
    Whole.Moves code env p (mid2 s lb s') (label2 lb) s'.whole := by
  have quiet : ∀ (lb : Option (MachineLabel (HandlerId → τ))), (∀ k c bs fin, lb ≠ some (.accept k c bs fin)) →
      Whole.Moves code env p s.whole (label0 lb) s'.whole →
      Whole.Moves code env p s.whole (label0 lb) (mid1 s lb s') ∧
      Whole.Moves code env p (mid1 s lb s') (label1 lb) (mid2 s lb s') ∧
      Whole.Moves code env p (mid2 s lb s') (label2 lb) s'.whole := by
    intro lb hl hm
    have h1 : mid1 s lb s' = s'.whole := by
      unfold mid1; split
      · exact absurd rfl (hl _ _ _ _)
      · rfl
    have h2 : mid2 s lb s' = s'.whole := by
      unfold mid2; split
      · exact absurd rfl (hl _ _ _ _)
      · rfl
    have h3 : label1 lb = none := by
      unfold label1; split
      · exact absurd rfl (hl _ _ _ _)
      · rfl
    have h4 : label2 lb = none := by
      unfold label2; split
      · exact absurd rfl (hl _ _ _ _)
      · rfl
    rw [h1, h2, h3, h4]
    exact ⟨hm, .inr ⟨rfl, rfl⟩, .inr ⟨rfl, rfl⟩⟩
  rcases st with st | ⟨rfl, rfl⟩
  · cases st with
    | accept k c q bs fin hk hf =>
      have hne : s.front c ≠ .accepted := by rw [hf]; simp
      have hc := h.conn c hne
      obtain ⟨f1, f2, _⟩ := h.fresh hb hne
      refine ⟨.inl (open_step hc), .inl (speak_step bs f1 f2), ?_⟩
      cases fin with
      | none => exact .inr ⟨rfl, taken_none bs f2⟩
      | some er => exact .inl (end_step bs er f2)
    | inner lb w' st hl =>
      refine quiet _ (fun k c bs fin e => by cases lb <;> simp at e) ?_
      cases lb with
      | none => exact .inl st
      | some lb => exact .inl st
    | _ => exact quiet _ (by simp) (.inr ⟨rfl, rfl⟩)
  · exact quiet _ (by simp) (.inr ⟨rfl, rfl⟩)

/-- The execution of the server inside an execution of a process. -/
structure Within (e : MachineExec code env p (Machine.init code devices w))
    (e' : WholeExec code env p (Whole.init code devices w)) : Prop where
  state0 : ∀ n, e'.state (3 * n) = (e.state n).whole
  state1 : ∀ n, e'.state (3 * n + 1) = mid1 (e.state n) (e.label n) (e.state (n + 1))
  state2 : ∀ n, e'.state (3 * n + 2) = mid2 (e.state n) (e.label n) (e.state (n + 1))
  label0 : ∀ n, e'.label (3 * n) = label0 (e.label n)
  label1 : ∀ n, e'.label (3 * n + 1) = label1 (e.label n)
  label2 : ∀ n, e'.label (3 * n + 2) = label2 (e.label n)

theorem exists_within (hb : Behaves code env) (e : MachineExec code env p (Machine.init code devices w)) :
    ∃ e', Within e e' := by
  let S : Nat → Whole code := fun i =>
    if i % 3 = 0 then (e.state (i / 3)).whole
    else if i % 3 = 1 then mid1 (e.state (i / 3)) (e.label (i / 3)) (e.state (i / 3 + 1))
    else mid2 (e.state (i / 3)) (e.label (i / 3)) (e.state (i / 3 + 1))
  let L : Nat → Option (TcpLabel (HandlerId → τ)) := fun i =>
    if i % 3 = 0 then Usbip.label0 (e.label (i / 3))
    else if i % 3 = 1 then Usbip.label1 (e.label (i / 3))
    else Usbip.label2 (e.label (i / 3))
  have S0 : ∀ n, S (3 * n) = (e.state n).whole := by
    intro n
    have h1 : 3 * n % 3 = 0 := by omega
    have h2 : 3 * n / 3 = n := by omega
    simp only [S, h1, h2, if_true]
  have S1 : ∀ n, S (3 * n + 1) = mid1 (e.state n) (e.label n) (e.state (n + 1)) := by
    intro n
    have h1 : (3 * n + 1) % 3 = 1 := by omega
    have h2 : (3 * n + 1) / 3 = n := by omega
    simp only [S, h1, h2]; simp
  have S2 : ∀ n, S (3 * n + 2) = mid2 (e.state n) (e.label n) (e.state (n + 1)) := by
    intro n
    have h1 : (3 * n + 2) % 3 = 2 := by omega
    have h2 : (3 * n + 2) / 3 = n := by omega
    simp only [S, h1, h2]; simp
  have L0 : ∀ n, L (3 * n) = Usbip.label0 (e.label n) := by
    intro n
    have h1 : 3 * n % 3 = 0 := by omega
    have h2 : 3 * n / 3 = n := by omega
    simp only [L, h1, h2, if_true]
  have L1 : ∀ n, L (3 * n + 1) = Usbip.label1 (e.label n) := by
    intro n
    have h1 : (3 * n + 1) % 3 = 1 := by omega
    have h2 : (3 * n + 1) / 3 = n := by omega
    simp only [L, h1, h2]; simp
  have L2 : ∀ n, L (3 * n + 2) = Usbip.label2 (e.label n) := by
    intro n
    have h1 : (3 * n + 2) % 3 = 2 := by omega
    have h2 : (3 * n + 2) / 3 = n := by omega
    simp only [L, h1, h2]; simp
  have step : ∀ i, Whole.Moves code env p (S i) (L i) (S (i + 1)) := by
    intro i
    obtain ⟨ls, hk⟩ := exec_inv hb e (i / 3)
    obtain ⟨g0, g1, g2⟩ := unfold_steps hb hk (e.step (i / 3))
    have : i = 3 * (i / 3) ∨ i = 3 * (i / 3) + 1 ∨ i = 3 * (i / 3) + 2 := by omega
    generalize i / 3 = n at *
    rcases this with rfl | rfl | rfl
    · rw [S0, L0, S1]; exact g0
    · rw [S1, L1, S2]; exact g1
    · rw [S2, L2, show 3 * n + 2 + 1 = 3 * (n + 1) from by omega, S0]; exact g2
  exact ⟨⟨S, L, by rw [show (0 : Nat) = 3 * 0 from rfl, S0, e.init]; rfl, step⟩, S0, S1, S2, L0, L1, L2⟩

variable {e : MachineExec code env p (Machine.init code devices w)} {e' : WholeExec code env p (Whole.init code devices w)}

/-- Tasks, locks, handlers, and what clients have received, are the same within a step. -/
theorem mid_same {s s' : Machine code} {lb : Option (MachineLabel (HandlerId → τ))}
    (st : Machine.Step code env p s lb s' ∨ (lb = none ∧ s' = s)) :
    ((mid1 s lb s').fine = s'.whole.fine ∧ (mid1 s lb s').got = s'.whole.got) ∧
    ((mid2 s lb s').fine = s'.whole.fine ∧ (mid2 s lb s').got = s'.whole.got) := by
  rcases st with st | ⟨rfl, rfl⟩
  · cases st with
    | inner lb w' st hl => cases lb <;> exact ⟨⟨rfl, rfl⟩, rfl, rfl⟩
    | _ => exact ⟨⟨rfl, rfl⟩, rfl, rfl⟩
  · exact ⟨⟨rfl, rfl⟩, rfl, rfl⟩

/-- At every moment within, tasks, locks, handlers and what clients have received are as at a moment of the process. -/
theorem Within.near (B : Within e e') (i : Nat) : ∃ n, i ≤ 3 * n ∧ 3 * n ≤ i + 2 ∧
    (e'.state i).fine = (e.state n).whole.fine ∧ (e'.state i).got = (e.state n).whole.got := by
  have : i = 3 * (i / 3) ∨ i = 3 * (i / 3) + 1 ∨ i = 3 * (i / 3) + 2 := by omega
  generalize i / 3 = n at this
  rcases this with rfl | rfl | rfl
  · exact ⟨n, by omega, by omega, by rw [B.state0], by rw [B.state0]⟩
  · refine ⟨n + 1, by omega, by omega, ?_⟩
    rw [B.state1]; exact (mid_same (e.step n)).1
  · refine ⟨n + 1, by omega, by omega, ?_⟩
    rw [B.state2]; exact (mid_same (e.step n)).2

/-- Whether a program can get further does not depend on what has arrived. -/
theorem acts_any {s s2 s' : Whole code} {lb : Option (TcpLabel (HandlerId → τ))} {t : Nat}
    (st : Whole.Step code env p s lb s') (ha : Acts t s lb s') (hf : s2.fine = s.fine) (hg : s2.got = s.got) :
    ∃ lb s2', Whole.Step code env p s2 lb s2' ∧ Acts t s2 lb s2' := by
  obtain ⟨fi, bu, en, go⟩ := s
  obtain ⟨fi2, bu2, en2, go2⟩ := s2
  dsimp only at hf hg
  subst hf hg
  cases st with
  | handler lb f st hl =>
    refine ⟨_, _, .handler _ lb f st hl, ?_⟩
    rcases ha with ⟨l, h⟩ | h | h
    · exact .inl ⟨l, h⟩
    · exact .inr (.inl h)
    · exact .inr (.inr h)
  | socket lb a st hl ho =>
    -- the step takes no bytes
    have key : ∀ l, lb = .server l → Advances l → prog l = some t →
        ∃ lb s2', Whole.Step code env p (⟨fi2, bu2, en2, go2⟩ : Whole code) lb s2' ∧ Acts t (⟨fi2, bu2, en2, go2⟩ : Whole code) lb s2' := by
      intro l e hadv hp
      subst e
      have ho' := ho
      have hl' := hl
      generalize hlab : TcpLabel.server l = lb at st
      cases st with
      | sent u c f k y ht hown hk hy hpre =>
        cases hlab
        exact ⟨_, _, .socket (⟨fi2, bu2, en2, go2⟩ : Whole code) _ _ (.sent _ u c f k y ht hown hk hy hpre) hl' ho',
          .inl ⟨_, rfl, hadv, hp⟩⟩
      | other l' cfg' st h1 h2 h3 =>
        cases hlab
        exact ⟨_, _, .socket (⟨fi2, bu2, en2, go2⟩ : Whole code) _ _ (.other _ _ cfg' st h1 h2 h3) hl' ho',
          .inl ⟨_, rfl, hadv, hp⟩⟩
      | connect => cases hlab; cases hp
      | iterate => cases hlab; cases hadv
      | iterateEnd => cases hlab; cases hadv
      | _ => cases hlab
    rcases ha with ⟨l, h, hadv, hp⟩ | ⟨h1, h2⟩ | ⟨i, h1, h2, h3, h4⟩
    · cases h; exact key l rfl hadv hp
    · exact absurd h1 h2
    · exact ⟨_, _, .handler _ none _ (.work (code := code) (env := env) (p := p) fi2 t i h1 h2) trivial,
        .inr (.inr ⟨i, h1, h2, upd_self _ _ _, upd_self _ _ _⟩)⟩

/-- Getting further in a step of the process is getting further in the first step within. -/
theorem acts_first {s s' : Machine code} {lb : Option (MachineLabel (HandlerId → τ))} {t : Nat}
    (st : Machine.Step code env p s lb s' ∨ (lb = none ∧ s' = s)) (ha : Acts t s.whole (inServer lb) s'.whole) :
    Acts t s.whole (label0 lb) (mid1 s lb s') := by
  rcases st with st | ⟨rfl, rfl⟩
  · cases st with
    | accept k c q bs fin hk hf =>
      rcases ha with ⟨l, h, _⟩ | h | h
      · cases h
      · exact .inr (.inl h)
      · exact .inr (.inr h)
    | inner lb w' st hl => cases lb <;> exact ha
    | _ => exact ha
  · exact ha

theorem Within.fair (B : Within e e') (h : e.Fair) : e'.Fair := by
  have up : ∀ n : Nat, ∃ k, n ≤ 3 * k := fun n => ⟨n, by omega⟩
  refine ⟨fun t n => ?_, fun t n hc he => ?_, fun a n => ?_, fun c n => ?_, fun c n => ?_, fun c n => ?_⟩
  · obtain ⟨m, hm, h'⟩ := h.tasks t n
    refine ⟨3 * m, by omega, ?_⟩
    rw [B.state0, B.label0, B.state1]
    exact h'.imp (acts_first (e.step m)) id
  · obtain ⟨m, hm, h'⟩ := h.mutexes t n (fun m hm => by rw [← B.state0]; exact hc (3 * m) (by omega)) (fun m hm => by
      obtain ⟨i, hi, lb, s', st, ha⟩ := he (3 * m) (by omega)
      obtain ⟨k, hk, _, hf, hg⟩ := B.near i
      exact ⟨k, by omega, acts_any st ha hf.symm hg.symm⟩)
    refine ⟨3 * m, by omega, ?_⟩
    rw [B.state0, B.label0, B.state1]
    exact acts_first (e.step m) h'
  · obtain ⟨m, hm, h'⟩ := h.apps a n
    exact ⟨3 * m, by omega, by rw [B.state0]; exact h'⟩
  · obtain ⟨m, hm, h'⟩ := h.reads c n
    refine ⟨3 * m, by omega, ?_⟩
    rw [B.state0, B.label0, B.state1]
    refine h'.imp (fun ⟨hl, hb⟩ => ?_) id
    rw [hl]
    exact ⟨rfl, hb⟩
  · obtain ⟨m, hm, h'⟩ := h.loops c n
    refine ⟨3 * m, by omega, ?_⟩
    rw [B.state0, B.label0]
    refine h'.imp (fun ⟨t, wr, hl⟩ => ⟨t, wr, ?_⟩) id
    rw [hl]; rfl
  · obtain ⟨m, hm, h'⟩ := h.clients c n
    refine ⟨3 * m, by omega, ?_⟩
    rw [B.state0, B.label0]
    refine h'.imp (fun ⟨b, bs, hl⟩ => ⟨b, bs, ?_⟩) id
    rw [hl]; rfl

/-- What goes wrong within a step goes wrong in the step. -/
theorem Within.inner_label (B : Within e e') {i : Nat} {lb : TcpLabel (HandlerId → τ)} (h : e'.label i = some lb)
    (h1 : ∀ c s, lb ≠ .server (.outside (.connect c s))) (h2 : ∀ c bs, lb ≠ .arrive c bs) (h3 : ∀ c er, lb ≠ .hangup c er) :
    ∃ n, i = 3 * n ∧ e.label n = some (.inner lb) := by
  have : i = 3 * (i / 3) ∨ i = 3 * (i / 3) + 1 ∨ i = 3 * (i / 3) + 2 := by omega
  generalize i / 3 = n at this
  rcases this with rfl | rfl | rfl
  · refine ⟨n, rfl, ?_⟩
    rw [B.label0] at h
    cases hl : e.label n with
    | none => rw [hl] at h; cases h
    | some l =>
      rw [hl] at h
      cases l with
      | accept k c bs fin => cases h; exact absurd rfl (h1 _ _)
      | inner l => cases h; rfl
      | _ => cases h
  · rw [B.label1] at h
    cases hl : e.label n with
    | none => rw [hl] at h; cases h
    | some l =>
      rw [hl] at h
      cases l with
      | accept k c bs fin => cases h; exact absurd rfl (h2 _ _)
      | _ => cases h
  · rw [B.label2] at h
    cases hl : e.label n with
    | none => rw [hl] at h; cases h
    | some l =>
      rw [hl] at h
      cases l with
      | accept k c bs fin =>
        cases fin with
        | none => cases h
        | some er => cases h; exact absurd rfl (h3 _ _)
      | _ => cases h

theorem Within.faulted (B : Within e e') {c i n : Nat} {y : Conn} (hi : i ≤ 3 * n) (h : e'.Faulted c i y) :
    e.Faulted c n y := by
  obtain ⟨h1, k, lb, hk, hl, hf⟩ := h
  obtain ⟨m, rfl, hm⟩ := B.inner_label hl (by rintro c s rfl; exact hf) (by rintro c s rfl; exact hf) (by rintro c s rfl; exact hf)
  exact ⟨h1, m, lb, by omega, hm, hf⟩

theorem Within.no_waits (B : Within e e') (hno : ∀ n t f i m k, (e.state n).whole.fine.cfg.flights t = some f →
    f.ev = .removeDevice i → f.code ≠ .lock .used m k) :
    ∀ n t f i m k, (e'.state n).fine.cfg.flights t = some f → f.ev = .removeDevice i → f.code ≠ .lock .used m k := by
  intro n t f i m k hf
  obtain ⟨j, _, _, hfi, _⟩ := B.near n
  rw [hfi] at hf
  exact hno j t f i m k hf

/-! ## Waiting to be accepted -/

/-- What an `accept` that succeeds is. -/
theorem accept_inv {s s' : Machine code} {k c : Nat} {bs : Bytes} {fin : Option ErrKind}
    (st : Machine.Step code env p s (some (.accept k c bs fin)) s' ∨
      ((some (.accept k c bs fin) : Option (MachineLabel (HandlerId → τ))) = none ∧ s' = s)) :
    ∃ q, s.calls k = some (.listening (c :: q)) ∧ s.front c = .waiting bs fin ∧
      s' = { whole := admitted s.whole c bs fin, calls := upd s.calls k (some (.listening q)), front := upd s.front c .accepted } := by
  rcases st with st | ⟨st, _⟩
  · generalize hl : (some (MachineLabel.accept k c bs fin) : Option (MachineLabel (HandlerId → τ))) = lb at st
    cases st with
    | accept k' c' q' bs' fin' hk' hf' => cases hl; exact ⟨q', hk', hf', rfl⟩
    | inner lb w' st hl' => cases lb <;> cases hl
    | _ => cases hl
  · cases st

/-- What a step does to the queue of a call that is not dropped. -/
theorem serving_step {s s' : Machine code} {lb : Option (MachineLabel (HandlerId → τ))}
    (st : Machine.Step code env p s lb s' ∨ (lb = none ∧ s' = s)) {k : Nat} {q : List Nat}
    (hk : s.calls k = some (.listening q)) (hd : lb ≠ some (.dropServe k)) :
    ((∀ c bs fin, lb ≠ some (.accept k c bs fin)) ∧ ∃ q', s'.calls k = some (.listening (q ++ q'))) ∨
    ∃ c q' bs fin, lb = some (.accept k c bs fin) ∧ q = c :: q' ∧ s'.calls k = some (.listening q') := by
  rcases st with st | ⟨rfl, rfl⟩
  · cases st with
    | serve k' b hk' =>
      have : k ≠ k' := by rintro rfl; rw [hk] at hk'; cases hk'
      exact .inl ⟨by simp, [], by dsimp only; rw [upd_ne _ _ this, hk, List.append_nil]⟩
    | dial k' c q' hk' hf =>
      refine .inl ⟨by simp, ?_⟩
      by_cases e : k = k'
      · subst e; rw [hk] at hk'; cases hk'; exact ⟨[c], upd_self _ _ _⟩
      · exact ⟨[], by dsimp only; rw [upd_ne _ _ e, hk, List.append_nil]⟩
    | refuse k' c hk' hf => exact .inl ⟨by simp, [], by rw [List.append_nil]; exact hk⟩
    | accept k' c q' bs fin hk' hf =>
      by_cases e : k = k'
      · subst e; rw [hk] at hk'; cases hk'
        exact .inr ⟨c, q', bs, fin, rfl, rfl, upd_self _ _ _⟩
      · refine .inl ⟨fun c' bs' fin' h => ?_, [], by dsimp only; rw [upd_ne _ _ e, hk, List.append_nil]⟩
        simp only [Option.some.injEq, MachineLabel.accept.injEq] at h
        exact e h.1.symm
    | acceptErr k' q' hk' => exact .inl ⟨by simp, [], by rw [List.append_nil]; exact hk⟩
    | dropServe k' q' hk' =>
      have e : k ≠ k' := fun e => hd (by rw [e])
      exact .inl ⟨by simp, [], by dsimp only; rw [upd_ne _ _ e, hk, List.append_nil]⟩
    | early c b bs hf => exact .inl ⟨by simp, [], by rw [List.append_nil]; exact hk⟩
    | earlyEnd c b er hf => exact .inl ⟨by simp, [], by rw [List.append_nil]; exact hk⟩
    | inner lb w' st hl =>
      exact .inl ⟨fun c' bs' fin' h => (by cases lb <;> simp at h), [], by rw [List.append_nil]; exact hk⟩
  · exact .inl ⟨by simp, [], by rw [List.append_nil]; exact hk⟩

/-- What a step does to a client that is waiting at a call that is not dropped. -/
theorem waiting_step {ls : List (MachineLabel (HandlerId → τ))} {s s' : Machine code}
    {lb : Option (MachineLabel (HandlerId → τ))} (hI : KInv code env p devices w ls s)
    (st : Machine.Step code env p s lb s' ∨ (lb = none ∧ s' = s)) {k c : Nat} {q : List Nat}
    (hk : s.calls k = some (.listening q)) (hc : c ∈ q) (hd : lb ≠ some (.dropServe k)) {b : Bytes} {fi : Option ErrKind}
    (hf : s.front c = .waiting b fi) :
    (∃ k' , lb = some (.accept k' c b fi)) ∨
      ∃ more fi', s'.front c = .waiting (b ++ more) fi' ∧ (fi ≠ none → fi' = fi ∧ more = []) := by
  have hP : PInv ((Proc.init devices w).run env p (ls.filterMap machineEvent)) := (PInv.init devices w).run _
  have stay : ∀ f' : Dialled, f' = s.front c → ∃ more fi', f' = .waiting (b ++ more) fi' ∧ (fi ≠ none → fi' = fi ∧ more = []) := by
    rintro _ rfl; exact ⟨[], fi, by rw [hf, List.append_nil], fun _ => ⟨rfl, rfl⟩⟩
  rcases st with st | ⟨rfl, rfl⟩
  · cases st with
    | dial k' c' q' hk' hf' =>
      have : c ≠ c' := by rintro rfl; rw [hf] at hf'; cases hf'
      exact .inr (stay _ (upd_ne _ _ this))
    | refuse k' c' hk' hf' =>
      have : c ≠ c' := by rintro rfl; rw [hf] at hf'; cases hf'
      exact .inr (stay _ (upd_ne _ _ this))
    | accept k' c' q' bs fin hk' hf' =>
      by_cases e : c = c'
      · subst e; rw [hf] at hf'; cases hf'; exact .inl ⟨k', rfl⟩
      · exact .inr (stay _ (upd_ne _ _ e))
    | dropServe k' q' hk' =>
      have e : k ≠ k' := fun e => hd (by rw [e])
      refine .inr (stay _ (if_neg fun hm => ?_))
      exact hP.apart k k' q q' (by rw [hI.calls]; exact hk) (by rw [hI.calls]; exact hk') e c hc hm
    | early c' b' bs hf' =>
      by_cases e : c = c'
      · subst e; rw [hf] at hf'; cases hf'
        exact .inr ⟨bs, none, upd_self _ _ _, fun h => absurd rfl h⟩
      · exact .inr (stay _ (upd_ne _ _ e))
    | earlyEnd c' b' er hf' =>
      by_cases e : c = c'
      · subst e; rw [hf] at hf'; cases hf'
        exact .inr ⟨[], some er, by dsimp only; rw [upd_self, List.append_nil], fun h => absurd rfl h⟩
      · exact .inr (stay _ (upd_ne _ _ e))
    | _ => exact .inr (stay _ rfl)
  · exact .inr (stay _ rfl)

/-- A call that is not dropped accepts everybody who is waiting. -/
theorem accepted_in_turn (hb : Behaves code env) (hfair : e.Fair) (k c : Nat) :
    ∀ (a n : Nat) (A B : List Nat) (b : Bytes) (fi : Option ErrKind), A.length = a →
      (e.state n).calls k = some (.listening (A ++ c :: B)) → (e.state n).front c = .waiting b fi →
      (∀ m, n ≤ m → e.label m ≠ some (.dropServe k)) →
      ∃ m bs fin, n ≤ m ∧ e.label m = some (.accept k c bs fin) ∧ (∃ more, bs = b ++ more) ∧ (fi ≠ none → fin = fi ∧ bs = b) := by
  intro a
  induction a with
  | zero =>
    intro n A B b fi hA hk hf hd
    rw [List.length_eq_zero_iff] at hA
    subst hA
    obtain ⟨m, hm, h⟩ := hfair.accepts k n
    obtain ⟨d, rfl⟩ := Nat.exists_eq_add_of_le hm
    clear hm
    induction d generalizing n B b fi with
    | zero =>
      rcases h with ⟨c', bs, fin, h⟩ | h
      · rcases serving_step (e.step n) hk (hd n (Nat.le_refl _)) with ⟨h', _⟩ | ⟨c2, q', bs2, fin2, h2, h3, _⟩
        · exact absurd h (h' c' bs fin)
        · simp only [List.nil_append, List.cons.injEq] at h3
          obtain ⟨rfl, rfl⟩ := h3
          have st := e.step n
          rw [h2] at st
          obtain ⟨q', hk', hf', _⟩ := accept_inv st
          rw [hf] at hf'; cases hf'
          exact ⟨n, _, _, Nat.le_refl _, h2, ⟨[], by simp⟩, fun _ => ⟨rfl, rfl⟩⟩
      · exact absurd ⟨c, B, hk⟩ h
    | succ d ih =>
      obtain ⟨ls, hI⟩ := exec_inv hb e n
      rcases serving_step (e.step n) hk (hd n (Nat.le_refl _)) with ⟨hno, q', hq'⟩ | ⟨c2, q', bs2, fin2, h2, h3, _⟩
      · rcases waiting_step hI (e.step n) hk (by simp) (hd n (Nat.le_refl _)) hf with ⟨k', hl⟩ | ⟨more, fi', hw, hfi⟩
        · exfalso
          have st := e.step n
          rw [hl] at st
          obtain ⟨q2, hk', hf', _⟩ := accept_inv st
          have hP : PInv ((Proc.init devices w).run env p (ls.filterMap machineEvent)) := (PInv.init devices w).run _
          by_cases ek : k = k'
          · subst ek; exact hno _ _ _ hl
          · exact hP.apart k k' _ _ (by rw [hI.calls]; exact hk) (by rw [hI.calls]; exact hk') ek c (by simp) (by simp)
        · rw [show n + (d + 1) = n + 1 + d from by omega] at h
          obtain ⟨m, bs, fin, g1, g2, ⟨more', g3⟩, g4⟩ := ih (n + 1) (B ++ q') (b ++ more) fi' hw (fun m hm => hd m (by omega))
            (by rw [hq']; simp) h
          refine ⟨m, bs, fin, by omega, g2, ⟨more ++ more', by rw [g3, List.append_assoc]⟩, fun hne => ?_⟩
          obtain ⟨e1, e2⟩ := hfi hne
          obtain ⟨e3, e4⟩ := g4 (by rw [e1]; exact hne)
          exact ⟨e3.trans e1, by rw [e4, e2, List.append_nil]⟩
      · simp only [List.nil_append, List.cons.injEq] at h3
        obtain ⟨rfl, rfl⟩ := h3
        have st := e.step n
        rw [h2] at st
        obtain ⟨q', hk', hf', _⟩ := accept_inv st
        rw [hf] at hf'; cases hf'
        exact ⟨n, _, _, Nat.le_refl _, h2, ⟨[], by simp⟩, fun _ => ⟨rfl, rfl⟩⟩
  | succ a iha =>
    intro n A B b fi hA hk hf hd
    obtain ⟨m, hm, h⟩ := hfair.accepts k n
    obtain ⟨d, rfl⟩ := Nat.exists_eq_add_of_le hm
    clear hm
    induction d generalizing n B b fi with
    | zero =>
      rcases h with ⟨c', bs, fin, h⟩ | h
      · obtain ⟨ls, hI⟩ := exec_inv hb e n
        rcases serving_step (e.step n) hk (hd n (Nat.le_refl _)) with ⟨h', _⟩ | ⟨c2, q', bs2, fin2, h2, h3, h4⟩
        · exact absurd h (h' c' bs fin)
        · obtain ⟨a0, A', rfl⟩ := List.exists_cons_of_length_eq_add_one hA
          simp only [List.cons_append, List.cons.injEq] at h3
          obtain ⟨rfl, rfl⟩ := h3
          have hP : PInv ((Proc.init devices w).run env p (ls.filterMap machineEvent)) := (PInv.init devices w).run _
          have hnd := hP.once k _ (by rw [hI.calls]; exact hk)
          rcases waiting_step hI (e.step n) hk (by simp) (hd n (Nat.le_refl _)) hf with ⟨k', hl⟩ | ⟨more, fi', hw, hfi⟩
          · rw [h2] at hl
            simp only [Option.some.injEq, MachineLabel.accept.injEq] at hl
            obtain ⟨_, rfl, _⟩ := hl
            simp at hnd
          · obtain ⟨m, bs, fin, g1, g2, ⟨more', g3⟩, g4⟩ := iha (n + 1) A' B (b ++ more) fi' (by simpa using hA) h4 hw
              (fun m hm => hd m (by omega))
            refine ⟨m, bs, fin, by omega, g2, ⟨more ++ more', by rw [g3, List.append_assoc]⟩, fun hne => ?_⟩
            obtain ⟨e1, e2⟩ := hfi hne
            obtain ⟨e3, e4⟩ := g4 (by rw [e1]; exact hne)
            exact ⟨e3.trans e1, by rw [e4, e2, List.append_nil]⟩
      · obtain ⟨a0, A', rfl⟩ := List.exists_cons_of_length_eq_add_one hA
        exact absurd ⟨a0, _, hk⟩ h
    | succ d ih =>
      obtain ⟨ls, hI⟩ := exec_inv hb e n
      have hP : PInv ((Proc.init devices w).run env p (ls.filterMap machineEvent)) := (PInv.init devices w).run _
      rcases waiting_step hI (e.step n) hk (by simp) (hd n (Nat.le_refl _)) hf with ⟨k', hl⟩ | ⟨more, fi', hw, hfi⟩
      · exfalso
        have st := e.step n
        rw [hl] at st
        obtain ⟨q2, hk', hf', _⟩ := accept_inv st
        by_cases ek : k = k'
        · subst ek
          have hnd := hP.once k _ (by rw [hI.calls]; exact hk)
          rw [hk] at hk'
          obtain ⟨a0, A', rfl⟩ := List.exists_cons_of_length_eq_add_one hA
          simp only [List.cons_append, Option.some.injEq, Serving.listening.injEq, List.cons.injEq] at hk'
          obtain ⟨rfl, _⟩ := hk'
          simp at hnd
        · exact hP.apart k k' _ _ (by rw [hI.calls]; exact hk) (by rw [hI.calls]; exact hk') ek c (by simp) (by simp)
      · rcases serving_step (e.step n) hk (hd n (Nat.le_refl _)) with ⟨_, q', hq'⟩ | ⟨c2, q', bs2, fin2, h2, h3, h4⟩
        · rw [show n + (d + 1) = n + 1 + d from by omega] at h
          obtain ⟨m, bs, fin, g1, g2, ⟨more', g3⟩, g4⟩ := ih (n + 1) (B ++ q') (b ++ more) fi'
            (by rw [hq']; simp) hw (fun m hm => hd m (by omega)) h
          refine ⟨m, bs, fin, by omega, g2, ⟨more ++ more', by rw [g3, List.append_assoc]⟩, fun hne => ?_⟩
          obtain ⟨e1, e2⟩ := hfi hne
          obtain ⟨e3, e4⟩ := g4 (by rw [e1]; exact hne)
          exact ⟨e3.trans e1, by rw [e4, e2, List.append_nil]⟩
        · obtain ⟨a0, A', rfl⟩ := List.exists_cons_of_length_eq_add_one hA
          simp only [List.cons_append, List.cons.injEq] at h3
          obtain ⟨rfl, rfl⟩ := h3
          obtain ⟨m, bs, fin, g1, g2, ⟨more', g3⟩, g4⟩ := iha (n + 1) A' B (b ++ more) fi' (by simpa using hA) h4 hw
            (fun m hm => hd m (by omega))
          refine ⟨m, bs, fin, by omega, g2, ⟨more ++ more', by rw [g3, List.append_assoc]⟩, fun hne => ?_⟩
          obtain ⟨e1, e2⟩ := hfi hne
          obtain ⟨e3, e4⟩ := g4 (by rw [e1]; exact hne)
          exact ⟨e3.trans e1, by rw [e4, e2, List.append_nil]⟩

/-- A connection that is accepted is there, with what its client has said. -/
theorem after_accept {n k c : Nat} {bs : Bytes} {fin : Option ErrKind}
    (h : e.label n = some (.accept k c bs fin)) :
    (e.state (n + 1)).whole.fine.cfg.conns c = some (Conn.new ⟨[], .unexpectedEof⟩) ∧
    (e.state (n + 1)).whole.buf c = bs ∧ (e.state (n + 1)).whole.ended c = fin ∧ (e.state (n + 1)).front c = .accepted := by
  have st := e.step n
  rw [h] at st
  obtain ⟨q, _, _, h'⟩ := accept_inv st
  rw [h']
  exact ⟨by simp [admitted, spoken, opened, setConn], upd_self _ _ _, upd_self _ _ _, upd_self _ _ _⟩

end

end Usbip
