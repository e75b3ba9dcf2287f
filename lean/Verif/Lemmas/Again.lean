import Verif.Props.Contest
import Verif.Lemmas.Crowd2
import Verif.Spec.Again
/-! Lemmas for C99. -/

namespace Usbip
open Spec

section
variable {τ : Type} {code : Code τ} {env : Env (HandlerId → τ)} {p : Profile} {devices : List Device} {dev : Device}
  {w : World (HandlerId → τ)}
  {e : MachineExec code env p (Machine.init code devices w)} {H : Nat → Prop} {busid : Nat → Bytes} {devid : Nat → UInt32}
  {d : Nat → Nat → Driver} {ls : Nat → List (MachineLabel (HandlerId → τ))} {L : Nat → Nat → List (Bytes × Handled)}

theorem gaveBack_keeps {s : Machine code} {c : Nat} (h : GaveBack s c) : ¬ Keeps s c dev := by
  rintro ⟨z, hz, h2⟩
  obtain ⟨y, hy, hc, hs⟩ := h
  rw [hz] at hy
  cases hy
  rcases h2 with h2 | ⟨h2, _⟩
  · rcases hs with h | ⟨er, h⟩ <;> rw [h] at h2 <;> cases h2
  · rw [hc] at h2; cases h2

/-- A host that was refused was not given the device. -/
theorem refused_without (hb : Behaves code env) (hA : AllTold e ls L) (ha : ∀ c, H c → Alongside e c (busid c) (devid c) (d c)) {c : Nat} (hc : H c)
    (n : Nat) (hm : ∀ g ∈ (L c n).map (·.2), Modest g.2.1) (hp : (d c n).phase = .refused) : L c n ≠ [] ∧ ¬ GivenBy dev (L c n) := by
  obtain ⟨e0, h1, _, h3⟩ := (C92_safe code env p devices w e c _ _ _ (ha c hc) _ (hA.exchanged hb ha hc) n hm).2.2.2.2 hp
  refine ⟨fun h0 => (by rw [h0] at h1; cases h1), ?_⟩
  rintro ⟨g, t, h4, h5⟩
  rw [h1] at h4
  cases h4
  rw [h3] at h5; cases h5

/-- When something is made of a request of a host, its connection is being served. -/
theorem answered_running (hb : Behaves code env) (hA : AllTold e ls L) (ha : ∀ c, H c → Alongside e c (busid c) (devid c) (d c)) {c : Nat} (hc : H c)
    {n : Nat} (h : L c (n + 1) ≠ L c n) : (e.state n).front c = .accepted ∧ ¬ GaveBack (e.state n) c := by
  rcases hA.step n with ⟨_, _, e2⟩ | ⟨lb, ev, hl, hev, _, e1, e2⟩ | ⟨evs, _, _, _, e2⟩
  · exact absurd (e2 c) h
  rotate_left
  · exact absurd (e2 c) h
  have hne : made env p c (behindNet env p devices w (ls n)) ev ≠ [] := by
    intro h0
    rw [e2, h0, List.append_nil] at h
    exact h rfl
  obtain ⟨wr, x, _, _, _, _, _, _, hx, hr, _⟩ := made_turn hne
  refine ⟨told_accepted (hA.told c n) hx, ?_⟩
  rintro ⟨y, hy, _, hs⟩
  have hnr : y.status ≠ .running := by rcases hs with h | ⟨er, h⟩ <;> rw [h] <;> exact fun h => (nomatch h)
  have hF := fed hb (ha c hc) (fun n => (ls n, L c n)) (fun n => ⟨hA.told c n, hA.grows c n⟩) n
  have h4 := (C81_explained code env hb p devices w _ _ (hA.told c n).inv.whole).2.2.2.1 c (hF.rest y hy hnr)
  rw [hy, Option.map_some] at h4
  have hx' : (behindNet env p devices w (ls n)).sys.conns c = _ := h4
  rw [hx] at hx'
  cases hx'
  exact hnr hr

/-- Somebody who was answered has been accepted. -/
theorem answered_accepted (hA : AllTold e ls L) {c n : Nat} (h : L c n ≠ []) : (e.state n).front c = .accepted :=
  Classical.byContradiction fun hn => h ((hA.told c n).log.other hn)

theorem gaveBack_stays (hb : Behaves code env) (e : MachineExec code env p (Machine.init code devices w)) {n m c : Nat}
    (h : GaveBack (e.state n) c) (hi : ∀ t, (e.state n).whole.fine.cfg.flights t = none) (hm : n ≤ m) : GaveBack (e.state m) c := by
  obtain ⟨e', W⟩ := exists_within hb e
  obtain ⟨e'', B⟩ := exists_behind hb e'
  obtain ⟨w1, h1⟩ := B.same (3 * n)
  obtain ⟨w2, h2⟩ := B.same (3 * m)
  rw [W.state0] at h1 h2
  obtain ⟨y, hy, hcur, hst⟩ := h
  have hx : (e''.state (3 * n)).cfg.conns c = some y := by rw [h1]; exact hy
  obtain ⟨_, _, z, g1, g2, g3, _⟩ := e''.stays_over hx (by rcases hst with h | ⟨er, h⟩ <;> rw [h] <;> simp)
    (by rw [h1]; intro t f hf; rw [show ((e.state n).whole.tcp.withWorld w1).cfg.flights t = none from hi t] at hf; cases hf) (show 3 * n ≤ 3 * m by omega)
  rw [h2] at g1
  exact ⟨z, g1, by rw [g3]; exact hcur, by rw [g2]; exact hst⟩

/-- On a server on which nothing is in progress: the connection has come to its end, and has no device. -/
def backIn {σ} (N : Net σ) (c : Nat) : Bool :=
  match N.sys.conns c with
  | some x => x.current.isNone && (match x.status with | .closed => true | .failed _ => true | _ => false)
  | none => false

theorem one_by_one (hb : Behaves code env) {k k2 : Nat} {pl : List Turn} (h : Crowded e d busid devid k k2 pl)
    (hgo : ∀ i c bs, pl[i]? = some (.enter c bs) → ∀ j c2 bs2, j < i → pl[j]? = some (.enter c2 bs2) →
      backIn (netTurns env p (crowdStart devices w) (pl.take i)) c2 = true) : OneByOne e (· < k) := by
  obtain ⟨T, mono, rest, front⟩ := h.after
  have key : ∀ n i j c1 c2 b1 b2, pl[i]? = some (.enter c1 b1) → pl[j]? = some (.enter c2 b2) → j < i → T (i + 1) ≤ n → GaveBack (e.state n) c2 := by
    intro n i j c1 c2 b1 b2 hi hj hlt hT
    have hlen : i < pl.length := (List.getElem?_eq_some_iff.mp hi).1
    obtain ⟨r1, r2⟩ := rest i (by omega)
    have hbk := hgo i c1 b1 hi j c2 b2 hlt hj
    rw [← r2] at hbk
    have := mono i (i + 1) (by omega) (by omega)
    refine gaveBack_stays hb e ?_ (fun t => r1.rest.none t) (show T i ≤ n by omega)
    unfold backIn at hbk
    cases hc : (e.state (T i)).whole.fine.cfg.conns c2 with
    | none => simp [restOf, Whole.tcp, hc] at hbk
    | some x =>
      refine ⟨x, hc, ?_⟩
      simp only [restOf, Whole.tcp, hc, Option.map_some, Bool.and_eq_true, Option.isNone_iff_eq_none] at hbk
      refine ⟨hbk.1, ?_⟩
      cases hst : x.status with
      | closed => exact .inl rfl
      | failed er => exact .inr ⟨er, rfl⟩
      | _ => rw [hst] at hbk; cases hbk.2
  intro n c1 c2 _ _ hne h1 h2
  obtain ⟨i, b1, hi, hTi⟩ := front n c1 h1
  obtain ⟨j, b2, hj, hTj⟩ := front n c2 h2
  rcases Nat.lt_trichotomy i j with hlt | rfl | hlt
  · exact .inl (key n j i c2 c1 b2 b1 hj hi hlt hTj)
  · rw [hi] at hj; cases hj; exact absurd rfl hne
  · exact .inr (key n i j c1 c2 b1 b2 hi hj hlt hTi)

end

end Usbip
