import Verif.Lemmas.Contest
import Verif.Lemmas.Crowd2
import Verif.Props.Granted
/-!
# Several Linux hosts want the same device (C98)

A process that exports a device, and any number of Linux hosts that ask for it, with any other clients.  One host at a time has it.
-/

namespace Usbip
open Spec Samples

section
variable {τ : Type} {code : Code τ} {env : Env (HandlerId → τ)} {p : Profile} {devices : List Device} {dev : Device}
  {w : World (HandlerId → τ)}
  {e : MachineExec code env p (Machine.init code devices w)} {H : Nat → Prop} {busid : Nat → Bytes} {devid : Nat → UInt32}
  {d : Nat → Nat → Driver}

/-- C98: one host at a time has the device.  Two hosts that both have been given it, or have attached it: one of them has hung up.  If one has it
and another is given it later, the first has hung up by then.  This is so whatever other clients do.  If only the hosts ask for the device,
then a host that does not get it was refused at a moment at which another had been given it, and had not given it back; and once
a host is waiting to be accepted, some time it has attached the device, or it is refused and another has attached it; unless something
went wrong for it or the other. -/
theorem C98_contest (hb : Behaves code env) (ha : ∀ c, H c → Alongside e c (busid c) (devid c) (d c))
    (hE : ∀ c, H c → Exported e devices dev (busid c)) :
    ∃ log : Nat → Nat → List Handled, (∀ c, H c → Exchanged e c (d c) (log c)) ∧
      (∀ c1 c2, H c1 → H c2 → c1 ≠ c2 → ∀ n,
        (Awarded dev (log c1 n) → Awarded dev (log c2 n) →
          (e.state n).whole.ended c1 ≠ none ∨ (e.state n).whole.ended c2 ≠ none) ∧
        ((∀ g ∈ log c1 n ++ log c2 n, Modest g.2.1) → (d c1 n).phase = .attached → (d c2 n).phase = .attached →
          (e.state n).whole.ended c1 ≠ none ∨ (e.state n).whole.ended c2 ≠ none) ∧
        ∀ m, n ≤ m → Awarded dev (log c1 n) → ¬ Awarded dev (log c2 n) → Awarded dev (log c2 m) →
          (e.state m).whole.ended c1 ≠ none) ∧
      (dev.path.length ≤ 256 → (∀ c, H c → Offered e devices dev c) → WantedBy e H dev.busId →
        (∀ c, H c → ∀ n, ((log c n ≠ [] ∧ ¬ Awarded dev (log c n)) ∨ ((∀ g ∈ log c n, Modest g.2.1) ∧ (d c n).phase = .refused)) →
          ∃ m, m < n ∧ log c m = [] ∧ log c (m + 1) ≠ [] ∧
            ∃ c2, c2 ≠ c ∧ H c2 ∧ Awarded dev (log c2 m) ∧ Keeps (e.state m) c2 dev) ∧
        (Returns code → e.Fair →
          (∀ n t f i m k, (e.state n).whole.fine.cfg.flights t = some f → f.ev = .removeDevice i → f.code ≠ .lock .used m k) →
          (∀ c, H c → Delivers e c (d c)) → ∀ c, H c → ∀ n, ((e.state n).front c = .accepted ∨
            ∃ k q, (e.state n).calls k = some (.listening q) ∧ c ∈ q ∧ ∀ m, n ≤ m → e.label m ≠ some (.dropServe k)) →
          ∃ m, n ≤ m ∧ ((d c m).phase = .attached ∨ Spoiled e c (d c) (log c) m ∨
            ((d c m).phase = .refused ∧ ∃ c2, c2 ≠ c ∧ H c2 ∧ ((d c2 m).phase = .attached ∨ Spoiled e c2 (d c2) (log c2) m))))) := by
  obtain ⟨ls, L, hA⟩ := all_told hb e
  have hx := fun c hc => hA.exchanged hb ha (c := c) hc
  have attach : ∀ c, H c → ∀ n, (∀ g ∈ (L c n).map (·.2), Modest g.2.1) → (d c n).phase = .attached → GivenBy dev (L c n) := by
    intro c hc n hm hp
    obtain ⟨e0, rest, dv, h1, h2, h3, _⟩ := (C92_safe code env p devices w e c _ _ _ (ha c hc) _ (hx c hc) n hm).2.2.2.1 hp
    refine ⟨e0, rest, h1, ?_⟩
    have hE := hE c hc
    have hmem : e0 ∈ (L c n).map (·.2) := by rw [h1]; exact List.mem_cons_self ..
    obtain ⟨g, hg, rfl⟩ := List.mem_map.mp hmem
    have := fromDevice (ha c hc) hE.named hE.single hA.zero hA.succ (hA.told c n) g hg
    rw [h2, h3] at this
    rw [h3, this _ _ rfl]
  have refuse : ∀ c, H c → ∀ n, (∀ g ∈ (L c n).map (·.2), Modest g.2.1) → (d c n).phase = .refused →
      L c n ≠ [] ∧ ¬ GivenBy dev (L c n) := by
    intro c hc n hm hp
    obtain ⟨e0, h1, _, h3⟩ := (C92_safe code env p devices w e c _ _ _ (ha c hc) _ (hx c hc) n hm).2.2.2.2 hp
    refine ⟨fun h0 => (by rw [h0] at h1; cases h1), ?_⟩
    rintro ⟨g, t, h4, h5⟩
    rw [h1] at h4
    cases h4
    rw [h3] at h5; cases h5
  refine ⟨fun c n => (L c n).map (·.2), hx, fun c1 c2 h1 h2 hne n => ⟨fun g1 g2 => given_once hb hA ha hE h1 h2 hne n g1 g2,
    fun hm p1 p2 => given_once hb hA ha hE h1 h2 hne n (attach c1 h1 n (fun g hg => hm g (List.mem_append_left _ hg)) p1)
      (attach c2 h2 n (fun g hg => hm g (List.mem_append_right _ hg)) p2),
    fun m hnm g1 g2 g2' => given_after hb hA ha hE h1 h2 hnm g1 g2 g2'⟩, fun hpath hof hW => ?_⟩
  have refusal : ∀ c, H c → ∀ n, L c n ≠ [] → ¬ GivenBy dev (L c n) → ∃ m, m < n ∧ L c m = [] ∧ L c (m + 1) ≠ [] ∧
      ∃ c2, c2 ≠ c ∧ H c2 ∧ GivenBy dev (L c2 m) ∧ Keeps (e.state m) c2 dev :=
    fun c hc n h1 h2 => refused_for hb hA ha hE hpath hW (hof c hc) hc h1 h2
  refine ⟨fun c hc n h => ?_, fun hret hfair hno hdel c hc n hq => ?_⟩
  · obtain ⟨m, h1, h2, h3, h4⟩ := refusal c hc n (by
      rcases h with ⟨h, _⟩ | ⟨h1, h2⟩
      · exact fun h0 => h (List.map_eq_nil_iff.mpr h0)
      · exact (refuse c hc n h1 h2).1) (by
      rcases h with ⟨_, h⟩ | ⟨h1, h2⟩
      · exact h
      · exact (refuse c hc n h1 h2).2)
    exact ⟨m, h1, List.map_eq_nil_iff.mpr h2, fun h => h3 (List.map_eq_nil_iff.mp h), h4⟩
  · obtain ⟨m, hnm, alt⟩ := C92_returned code env p devices w e c _ _ _ hb hret hfair hno (ha c hc) (hdel c hc) _ (hx c hc) n hq
    rcases alt with ⟨b1, b2, _⟩ | bad
    rotate_left
    · exact ⟨m, hnm, .inr (.inl bad)⟩
    by_cases hat : (d c m).phase = .attached
    · exact ⟨m, hnm, .inl hat⟩
    by_cases hmod : ∀ g ∈ (L c m).map (·.2), Modest g.2.1
    rotate_left
    · exact ⟨m, hnm, .inr (.inl (.inl (Classical.byContradiction fun hn => hmod fun e he => Classical.byContradiction fun h => hn ⟨e, he, h⟩)))⟩
    have href : (d c m).phase = .refused := by
      cases h : (d c m).phase <;> simp_all
    obtain ⟨q1, q2⟩ := refuse c hc m hmod href
    obtain ⟨m0, hm0, _, _, c2, hne, hc2, hg2, _⟩ := refusal c hc m q1 q2
    have hacc : (e.state m).front c2 = .accepted := by
      apply Classical.byContradiction
      intro hn
      have := (hA.told c2 m).log.other hn
      obtain ⟨t, ht⟩ := hA.mono c2 (Nat.le_of_lt hm0)
      obtain ⟨g, t', h1, _⟩ := hg2
      rw [this] at ht
      rw [(List.append_eq_nil_iff.mp ht).1] at h1
      cases h1
    obtain ⟨m2, hm2, alt⟩ := C92_returned code env p devices w e c2 _ _ _ hb hret hfair hno (ha c2 hc2) (hdel c2 hc2) _ (hx c2 hc2) m
      (.inl hacc)
    have href2 := (ha c hc).refused_stays hm2 href
    refine ⟨m2, by omega, .inr (.inr ⟨href2, c2, hne, hc2, ?_⟩)⟩
    rcases alt with ⟨b1, b2, _⟩ | bad
    rotate_left
    · exact .inr bad
    by_cases hmod2 : ∀ g ∈ (L c2 m2).map (·.2), Modest g.2.1
    rotate_left
    · exact .inr (.inl (Classical.byContradiction fun hn => hmod2 fun e he => Classical.byContradiction fun h => hn ⟨e, he, h⟩))
    left
    have hnr : (d c2 m2).phase ≠ .refused := by
      intro hr
      obtain ⟨t, ht⟩ := hA.mono c2 (show m0 ≤ m2 by omega)
      refine (refuse c2 hc2 m2 hmod2 hr).2 ?_
      rw [← ht]; exact givenBy_append hg2
    cases h : (d c2 m2).phase <;> simp_all

end

namespace Samples

/-- Three hosts ask for the device.  The first is given it; the second is refused; the first hangs up, and the server finds out; the third is
given it. -/
def threeTurns : List Turn := [.enter 0 (asks (fun _ => busA) 0), .enter 1 (asks (fun _ => busA) 1), .enter 2 (asks (fun _ => busA) 2), .iterate 0, .iterate 1, .hangup 0 .unexpectedEof, .iterate 0, .iterate 2]

theorem threeEnter (c : Nat) (hc : c < 3) : Turn.enter c (asks (fun _ => busA) c) ∈ threeTurns := by
  match c, hc with
  | 0, _ => exact .head _
  | 1, _ => exact .tail _ (.head _)
  | 2, _ => exact .tail _ (.tail _ (.head _))

theorem threeFits : CrowdFits (oneEnv keyboardObj) dev [devA] (oneWorld Keyboard.new) (fun _ => busA) 3 3 threeTurns
    (fun c => match c with | 0 => 4 | 1 => 5 | _ => 8) := by
  refine ⟨Nat.le_refl _, by decide +kernel, by decide +kernel, by decide, by decide +kernel, fun c hc => ⟨_, threeEnter c hc⟩, ?_, ?_, by decide +kernel⟩
  · intro c hc x hx
    have : ∀ c, c < 3 → (((netTurns (oneEnv keyboardObj) dev (crowdStart [devA] (oneWorld Keyboard.new)) threeTurns).sys.conns c).all
        fun x => decide (x.input.bytes = [] ∧ (x.status = .running →
          (netTurns (oneEnv keyboardObj) dev (crowdStart [devA] (oneWorld Keyboard.new)) threeTurns).ended c = none))) = true := by
      decide +kernel
    have := this c hc
    rw [hx] at this
    exact of_decide_eq_true this
  · intro x hx
    simp only [threeTurns, List.mem_cons, List.not_mem_nil, or_false] at hx
    rcases hx with rfl | rfl | rfl | rfl | rfl | rfl | rfl | rfl <;> decide

/-- The first has hung up; it and the third have attached the device; the second was refused. -/
example : ∃ (e : MachineExec (oneShot keyboardObj) (oneEnv keyboardObj) dev
      (Machine.init (oneShot keyboardObj) [devA] (oneWorld Keyboard.new))) (d : Nat → Nat → Driver) (N : Nat),
    Behaves (oneShot keyboardObj) (oneEnv keyboardObj) ∧ (∀ c, c < 3 → Alongside e c busA 65538 (d c)) ∧
    (∀ c, c < 3 → Exported e [devA] devA busA) ∧ devA.path.length ≤ 256 ∧ (∀ c, c < 3 → Offered e [devA] devA c) ∧ WantedBy e (· < 3) devA.busId ∧
    Returns (oneShot keyboardObj) ∧ e.Fair ∧
    (∀ n t f i m k, (e.state n).whole.fine.cfg.flights t = some f → f.ev = .removeDevice i → f.code ≠ .lock .used m k) ∧
    (∀ c, c < 3 → Delivers e c (d c)) ∧
    (∀ c, c < 3 → ∃ n k q, (e.state n).calls k = some (.listening q) ∧ c ∈ q ∧ ∀ m, n ≤ m → e.label m ≠ some (.dropServe k)) ∧
    (d 0 N).phase = .attached ∧ (d 1 N).phase = .refused ∧ (d 2 N).phase = .attached ∧
    (e.state N).whole.ended 0 ≠ none ∧ (e.state N).whole.ended 1 = none ∧ (e.state N).whole.ended 2 = none := by
  obtain ⟨e, d, h⟩ := crowded (oneShot_behaves keyboardObj) (oneShot_returns keyboardObj) (fun _ => 65538) threeFits
  obtain ⟨N, hN⟩ := h.last
  obtain ⟨h1, h2⟩ := hN N (Nat.le_refl _)
  have own : ∀ n lb ev, e.label n = some (.inner lb) → tcpEvent lb = some ev → ∃ x : Turn, x.events = [ev] := fun n lb ev hl he =>
    have ⟨x, _, ho⟩ := h.owns n lb hl ev he
    ⟨x, ho⟩
  have given : ∀ n, devicesBy e.label [devA] n = [devA] := fun n =>
    ((devicesBy_prefix e.label [devA] (Nat.zero_le n)).eq_of_length_le (h.given n).length_le).symm
  refine ⟨e, d, N, oneShot_behaves _, h.alongside,
    fun c hc => ⟨by decide, fun n => by rw [given n]; simp [Single]⟩, by decide,
    fun c hc n _ => (by rw [given n]; exact List.mem_singleton.mpr rfl), ⟨fun c hc ⟨n, ha⟩ => absurd (h.only n c ha) hc, fun n lb hl ht => ?_⟩,
    oneShot_returns _, h.fair, h.noRemovals, h.delivers, fun c hc => ?_, ?_⟩
  · obtain ⟨x, hx⟩ := own n lb _ hl ht
    cases x <;> cases hx
  · obtain ⟨n, hn⟩ := h.queued c hc
    exact ⟨n, 0, [c], hn, List.mem_singleton.mpr rfl, fun m _ => h.serves m 0⟩
  · rw [h1 0 (by omega), h1 1 (by omega), h1 2 (by omega), h2]
    decide +kernel

end Samples

end Usbip
