import Verif.Lemmas.FreezeLive
/-! Helper lemmas: if connections that are between two commands receive nothing any more, there is a time from which on
nobody does (C106). -/

namespace Usbip
open Spec

/-- Program `t` has to send the rest of what leaves connection `c` as `y`, and to release its locks. -/
def Last {σ} (t c : Nat) (y : Conn) (s : Tcp σ) : Prop :=
  ∃ f, s.cfg.flights t = some f ∧ f.owner = some c ∧ s.got c <+: y.output ∧
    ((∃ k, f.code = .send k ∧ k.final = some y) ∨ f.code.final = some y)

theorem last_step {σ} {env : Env σ} {p : Profile} {devices : List Device} {w : World σ} {ls : List (TcpLabel σ)} {s s' : Tcp σ}
    {lb : TcpLabel σ} (hT : TInv env p devices w ls s) (st : Tcp.Step env p s lb s') {t c : Nat} {y : Conn}
    (h : Last t c y s) : Last t c y s' ∨ s'.cfg.idle c := by
  obtain ⟨f, hf, ho, hp, hc⟩ := h
  have ne : ∀ v, s.cfg.flights v = none → t ≠ v := fun v hv e => by subst e; rw [hf] at hv; cases hv
  have gone : ∀ (s2 : Tcp σ), (∀ v, s2.cfg.flights v = (s.cfg.put t none).flights v) → s2.cfg.idle c := by
    intro s2 h v g hv hg
    rw [h v] at hv
    by_cases e : v = t
    · subst e; rw [show (s.cfg.put v none).flights v = none from upd_self _ _ _] at hv; cases hv
    · exact e (hT.owners ((upd_ne _ _ e).symm.trans hv) hf hg ho)
  cases st with
  | connect c' h => exact .inl ⟨f, hf, ho, hp, hc⟩
  | arrive c' bs h he => exact .inl ⟨f, hf, ho, hp, hc⟩
  | hangup c' e h he => exact .inl ⟨f, hf, ho, hp, hc⟩
  | take c' x bs rest h hi hb => exact .inl ⟨f, hf, ho, hp, hc⟩
  | iterate v c' wr x hv h hr hi hd => exact .inl ⟨f, (upd_ne _ _ (ne v hv)).trans hf, ho, hp, hc⟩
  | iterateEnd v c' wr x e hv h hr hi he hb => exact .inl ⟨f, (upd_ne _ _ (ne v hv)).trans hf, ho, hp, hc⟩
  | piece v c' g k z bs hv hgo hk hz hpre =>
    by_cases e : c = c'
    · subst e
      cases hT.owners hf hv ho hgo
      rw [hf] at hv; cases hv
      rcases hc with ⟨k', hk', hy⟩ | hc
      · rw [hk'] at hk; cases hk
        rw [hy] at hz; cases hz
        exact .inl ⟨f, hf, ho, by dsimp only; rw [upd_self]; exact hpre, .inl ⟨_, hk', hy⟩⟩
      · rw [hk] at hc; cases hc
    · exact .inl ⟨f, hf, ho, by dsimp only; rw [upd_ne _ _ e]; exact hp, hc⟩
  | sent v c' g k z hv hgo hk hz hpre =>
    by_cases e : t = v
    · subst e
      rw [hf] at hv; cases hv
      rcases hc with ⟨k', hk', hy⟩ | hc
      · rw [hk'] at hk; cases hk
        exact .inl ⟨_, upd_self _ _ _, ho, hp, .inr hy⟩
      · rw [hk] at hc; cases hc
    · exact .inl ⟨f, (upd_ne _ _ e).trans hf, ho, hp, hc⟩
  | other lb0 cfg' st0 h1 h2 h3 =>
    by_cases hpr : prog lb0 = some t
    · have hcode : ∀ k, f.code = .send k → lb0 ≠ .inner t := fun k hk hl => h3 t f k hl hf hk
      cases st0 with
      | connect c' input hc => cases hpr
      | user f crash => cases hpr
      | cancel c' x hc hr hi => cases hpr
      | iterate v c' wr x hv => exact absurd rfl (h2 _ _ _)
      | add v d hv => cases hpr; rw [hf] at hv; cases hv
      | remove v i hv => cases hpr; rw [hf] at hv; cases hv
      | finish v g z hv hk => cases hpr; exact .inr (gone _ fun _ => rfl)
      | abandon v g hv hcm => cases hpr; exact .inr (gone _ fun _ => rfl)
      | unlock v g l k hv hk =>
        cases hpr
        rw [hf] at hv; cases hv
        refine .inl ⟨_, upd_self _ _ _, ho, hp, .inr ?_⟩
        rcases hc with ⟨k', hk', hy⟩ | hc
        · rw [hk] at hk'; cases hk'
        · rw [hk] at hc; exact hc
      | send v g k hv hk =>
        cases hpr
        rw [hf] at hv; cases hv
        exact absurd rfl (hcode _ hk)
      | request v g l md k hv hk | grant v g l md k q hv hk | getUsed v g k hv hk | getAvail v g k hv hk
      | putUsed v g u k hv hk | putAvail v g u k hv hk | commit v g u k hv hk =>
        cases hpr
        rw [hf] at hv; cases hv
        rcases hc with ⟨k', hk', hy⟩ | hc
        · rw [hk] at hk'; cases hk'
        · rw [hk] at hc; cases hc
    · exact .inl ⟨f, (flights_other st0 hpr).trans hf, ho, hp, hc⟩

variable {σ : Type} {env : Env σ} {p : Profile} {devices : List Device} {w : World σ} {e : TcpExec env p (Tcp.init devices w)}

theorem Spec.TcpExec.got_grows (c n j : Nat) : (e.state n).got c <+: (e.state (n + j)).got c := by
  induction j with
  | zero => exact List.prefix_rfl
  | succ j ih =>
    refine ih.trans ?_
    rcases got_step (e.step (n + j)) c with ⟨h, _⟩ | ⟨_, _, _, _, bs, _, _, _, _, _, _, h⟩
    · rw [← Nat.add_assoc, h]; exact List.prefix_rfl
    · rw [← Nat.add_assoc, h]; exact List.prefix_append _ _

/-- What grows and has a bound comes to rest. -/
theorem Spec.TcpExec.bounded {c : Nat} {out : Bytes} : ∀ (d n : Nat), (∀ m, n ≤ m → (e.state m).got c <+: out) →
    out.length ≤ ((e.state n).got c).length + d →
    ∃ M, n ≤ M ∧ ∀ m, M ≤ m → (e.state m).got c = (e.state M).got c
  | d, n, hb, hl => by
    by_cases h : ∃ m, n ≤ m ∧ (e.state m).got c ≠ (e.state n).got c
    · obtain ⟨m, hm, hne⟩ := h
      obtain ⟨j, rfl⟩ := Nat.exists_eq_add_of_le hm
      have hpre := e.got_grows c n j
      have hlt : ((e.state n).got c).length < ((e.state (n + j)).got c).length := by
        refine Nat.lt_of_le_of_ne hpre.length_le fun h => hne (hpre.eq_of_length h).symm
      have := (hb (n + j) hm).length_le
      cases d with
      | zero => omega
      | succ d =>
        obtain ⟨M, hM, h⟩ := Spec.TcpExec.bounded d (n + j) (fun m h => hb m (by omega)) (by omega)
        exact ⟨M, by omega, h⟩
    · exact ⟨n, Nat.le_refl n, fun m hm => Classical.byContradiction fun hne => h ⟨m, hm, hne⟩⟩

/-- A connection whose command does not come to an end receives a last byte. -/
theorem Spec.TcpExec.rests {n c : Nat} (hni : ∀ m, n ≤ m → ¬ (e.state m).cfg.idle c) :
    ∃ M, n ≤ M ∧ ∀ m, M ≤ m → (e.state m).got c = (e.state M).got c := by
  by_cases h : ∃ m, n ≤ m ∧ (e.state (m + 1)).got c ≠ (e.state m).got c
  · obtain ⟨m, hm, hne⟩ := h
    rcases got_step (e.step m) c with ⟨h, _⟩ | ⟨t, f, k, y, bs, _, hf, ho, hk, hy, hp, h⟩
    · exact absurd h hne
    have main : ∀ j, Last t c y (e.state (m + j)) := by
      intro j
      induction j with
      | zero => exact ⟨f, hf, ho, (List.prefix_append _ _).trans hp, .inl ⟨k, hk, hy⟩⟩
      | succ j ih =>
        rcases last_step (e.inv (m + j)) (e.step (m + j)) ih with h | h
        · exact h
        · exact absurd h (hni _ (by omega))
    obtain ⟨M, hM, h⟩ := e.bounded (c := c) (out := y.output) y.output.length m (fun m' hm' => by
      obtain ⟨j, rfl⟩ := Nat.exists_eq_add_of_le hm'
      obtain ⟨_, _, _, h, _⟩ := main j
      exact h) (by omega)
    exact ⟨M, by omega, h⟩
  · refine ⟨n, Nat.le_refl n, fun m hm => ?_⟩
    obtain ⟨j, rfl⟩ := Nat.exists_eq_add_of_le hm
    induction j with
    | zero => rfl
    | succ j ih =>
      refine Eq.trans ?_ (ih (by omega))
      exact Classical.byContradiction fun hne => h ⟨n + j, by omega, hne⟩

/-- If connections between two commands receive nothing any more, there is a time from which on nobody does. -/
theorem Spec.TcpExec.silence {n : Nat}
    (hq : ∀ c m m', n ≤ m → m ≤ m' → (e.state m).cfg.idle c → (e.state m').got c = (e.state m).got c) :
    ∃ M, n ≤ M ∧ ∀ m c, M ≤ m → (e.state m).got c = (e.state M).got c := by
  have one : ∀ c, ∃ M, n ≤ M ∧ ∀ m, M ≤ m → (e.state m).got c = (e.state M).got c := by
    intro c
    by_cases h : ∃ m, n ≤ m ∧ (e.state m).cfg.idle c
    · obtain ⟨m, hm, hi⟩ := h
      exact ⟨m, hm, fun m' hm' => hq c m m' hm hm' hi⟩
    · exact e.rests fun m hm hi => h ⟨m, hm, hi⟩
  obtain ⟨N, hN⟩ := (e.inv n).finite
  have some : ∀ K, ∃ M, n ≤ M ∧ ∀ t f c, t < K → (e.state n).cfg.flights t = some f → f.owner = some c →
      ∀ m, M ≤ m → (e.state m).got c = (e.state M).got c := by
    intro K
    induction K with
    | zero => exact ⟨n, Nat.le_refl n, fun t _ _ ht => absurd ht (Nat.not_lt_zero t)⟩
    | succ K ih =>
      obtain ⟨M, hM, h⟩ := ih
      have old : ∀ M', M ≤ M' → ∀ t f c, t < K → (e.state n).cfg.flights t = .some f → f.owner = .some c →
          ∀ m, M' ≤ m → (e.state m).got c = (e.state M').got c := fun M' hM' t f c ht hf ho m hm =>
        (h t f c ht hf ho m (by omega)).trans (h t f c ht hf ho M' hM').symm
      have none : (∀ f c, (e.state n).cfg.flights K = .some f → f.owner ≠ .some c) → ∃ M, n ≤ M ∧ ∀ t f c, t < K + 1 →
          (e.state n).cfg.flights t = .some f → f.owner = .some c → ∀ m, M ≤ m → (e.state m).got c = (e.state M).got c := by
        intro hK
        refine ⟨M, hM, fun t f c ht hf ho => ?_⟩
        by_cases e : t = K
        · subst e; exact absurd ho (hK f c hf)
        · exact h t f c (by omega) hf ho
      cases hf : (e.state n).cfg.flights K with
      | none => exact none fun f c h => by rw [hf] at h; cases h
      | some f =>
        cases ho : f.owner with
        | none => exact none fun g c h => by rw [hf] at h; cases h; rw [ho]; nofun
        | some c =>
          obtain ⟨M1, hM1, h1⟩ := one c
          refine ⟨max M M1, by omega, fun t g c' ht hg hgo m hm => ?_⟩
          by_cases e' : t = K
          · subst e'
            rw [hf] at hg; cases hg
            rw [ho] at hgo; cases hgo
            exact (h1 m (by omega)).trans (h1 (max M M1) (by omega)).symm
          · exact old (max M M1) (by omega) t g c' (by omega) hg hgo m hm
  obtain ⟨M, hM, h⟩ := some N
  refine ⟨M, hM, fun m c hm => ?_⟩
  by_cases hi : (e.state n).cfg.idle c
  · exact (hq c n m (Nat.le_refl n) (by omega) hi).trans (hq c n M (Nat.le_refl n) hM hi).symm
  · obtain ⟨t, f, hf, ho⟩ : ∃ t f, (e.state n).cfg.flights t = .some f ∧ f.owner = .some c := by
      refine Classical.byContradiction fun hno => hi fun t f hf ho => hno ⟨t, f, hf, ho⟩
    refine h t f c ?_ hf ho m hm
    refine Classical.byContradiction fun hlt => ?_
    rw [hN t (by omega)] at hf
    cases hf

end Usbip
