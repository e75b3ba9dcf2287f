import Verif.Lemmas.Again
/-!
# Linux hosts that come one after the other (C99)

A process that exports a device, and Linux hosts that use it in turn.  Each finds the device there again.
-/

namespace Usbip
open Spec Samples

section
variable {τ : Type} {code : Code τ} {env : Env (HandlerId → τ)} {p : Profile} {devices : List Device} {dev : Device}
  {w : World (HandlerId → τ)}
  {e : MachineExec code env p (Machine.init code devices w)} {H : Nat → Prop} {busid : Nat → Bytes} {devid : Nat → UInt32}
  {d : Nat → Nat → Driver}

/-- C99: a client that hangs up, while it waits to be accepted or later, gives the device back for good: some time its connection has come
to its end and has no device; unless the connection's task panics, is dropped, or cannot write. -/
theorem C99_back (hb : Behaves code env) (hret : Returns code) (hfair : e.Fair)
    (hno : ∀ n t f i m k, (e.state n).whole.fine.cfg.flights t = some f → f.ev = .removeDevice i → f.code ≠ .lock .used m k)
    (n c : Nat) (h : (∃ k q b er, (e.state n).calls k = some (.listening q) ∧ c ∈ q ∧
        (e.state n).front c = .waiting b (some er) ∧ ∀ m, n ≤ m → e.label m ≠ some (.dropServe k)) ∨
      ∃ x, (e.state n).whole.fine.cfg.conns c = some x ∧ x.status = .running ∧ (e.state n).whole.ended c ≠ none) :
    ∃ m, n < m ∧ ((∀ m', m ≤ m' → GaveBack (e.state m') c) ∨
      ∃ y, (e.state m).whole.fine.cfg.conns c = some y ∧ (y.status = .panicked ∨ e.Faulted c m y)) := by
  obtain ⟨m, y, h1, h2, h3, h4⟩ := C91_hangup code env p devices w e hb hret hfair hno n c h
  refine ⟨m, h1, ?_⟩
  rcases h3 with (h3 | ⟨h3, h5⟩) | h3
  · exact .inr ⟨y, h2, .inl h3⟩
  · refine .inl fun m' hm => ?_
    obtain ⟨_, _, z, g1, g2, g3, _⟩ := h4 m' hm
    exact ⟨z, g1, by rw [g3]; exact h3, by rw [g2]; exact h5⟩
  · exact .inr ⟨y, h2, .inr h3⟩

/-- C99: if nobody but the hosts asks for the device (as in C98), then a host is given it if at the moment at which its request is handled
every other host that was given it before has given it back.  Then it is never refused, and some time it has attached the device. -/
theorem C99_next (hb : Behaves code env) (ha : ∀ c, H c → Alongside e c (busid c) (devid c) (d c))
    (hE : ∀ c, H c → Exported e devices dev (busid c)) (hpath : dev.path.length ≤ 256)
    (hof : ∀ c, H c → Offered e devices dev c) (hW : WantedBy e H dev.busId) :
    ∃ log : Nat → Nat → List Handled, (∀ c, H c → Exchanged e c (d c) (log c)) ∧
      (OneByOne e H → ∀ c, H c → ∀ m, log c m = [] → log c (m + 1) ≠ [] → ∀ c2, H c2 → c2 ≠ c → Awarded dev (log c2 m) → GaveBack (e.state m) c2) ∧
      ∀ c, H c →
        (∀ m, log c m = [] → log c (m + 1) ≠ [] → ∀ c2, H c2 → c2 ≠ c → Awarded dev (log c2 m) → GaveBack (e.state m) c2) →
        (∀ n, log c n ≠ [] → Awarded dev (log c n)) ∧
        (∀ n, (∀ g ∈ log c n, Modest g.2.1) → (d c n).phase ≠ .refused) ∧
        (Returns code → e.Fair →
          (∀ n t f i m k, (e.state n).whole.fine.cfg.flights t = some f → f.ev = .removeDevice i → f.code ≠ .lock .used m k) →
          Delivers e c (d c) → ∀ n, ((e.state n).front c = .accepted ∨
            ∃ k q, (e.state n).calls k = some (.listening q) ∧ c ∈ q ∧ ∀ m, n ≤ m → e.label m ≠ some (.dropServe k)) →
          ∃ m, n ≤ m ∧ ((d c m).phase = .attached ∨ Spoiled e c (d c) (log c) m)) := by
  obtain ⟨ls, L, hA⟩ := all_told hb e
  refine ⟨fun c n => (L c n).map (·.2), fun c hc => hA.exchanged hb ha hc, fun hO c hc m h1 h2 c2 hc2 hne hg => ?_, fun c hc hk => ?_⟩
  · have h1 : L c m = [] := List.map_eq_nil_iff.mp h1
    have h2 : L c (m + 1) ≠ [] := fun h => h2 (List.map_eq_nil_iff.mpr h)
    obtain ⟨g1, g2⟩ := answered_running hb hA ha hc (n := m) (by rw [h1]; exact h2)
    have g3 : L c2 m ≠ [] := by
      obtain ⟨g, t, h, _⟩ := hg
      intro h0; dsimp only at h; rw [h0] at h; cases h
    exact (hO m c2 c hc2 hc hne (answered_accepted hA g3) g1).resolve_right g2
  have given : ∀ n, L c n ≠ [] → GivenBy dev (L c n) := by
    intro n hn
    apply Classical.byContradiction
    intro hg
    obtain ⟨m, _, h1, h2, c2, h3, h4, h5, h6⟩ := refused_for hb hA ha hE hpath hW (hof c hc) hc hn hg
    exact gaveBack_keeps (hk m (List.map_eq_nil_iff.mpr h1) (fun h => h2 (List.map_eq_nil_iff.mp h)) c2 h4 h3 h5) h6
  have safe : ∀ n, (∀ g ∈ (L c n).map (·.2), Modest g.2.1) → (d c n).phase ≠ .refused := by
    intro n hm hp
    obtain ⟨h1, h2⟩ := refused_without hb hA ha hc n hm hp
    exact h2 (given n h1)
  refine ⟨fun n hn => given n (fun h => hn (List.map_eq_nil_iff.mpr h)), safe, fun hret hfair hno hdel n hq => ?_⟩
  obtain ⟨m, hnm, alt⟩ := C92_returned code env p devices w e c _ _ _ hb hret hfair hno (ha c hc) hdel _ (hA.exchanged hb ha hc) n hq
  refine ⟨m, hnm, ?_⟩
  rcases alt with ⟨b1, b2, _⟩ | bad
  rotate_left
  · exact .inr bad
  by_cases hmod : ∀ g ∈ (L c m).map (·.2), Modest g.2.1
  rotate_left
  · exact .inr (.inl (Classical.byContradiction fun hn => hmod fun e he => Classical.byContradiction fun h => hn ⟨e, he, h⟩))
  have := safe m hmod
  left
  cases h : (d c m).phase <;> simp_all

/-- C99: hosts that are served one after the other are all given the device. -/
theorem C99_in_turn (hb : Behaves code env) (ha : ∀ c, H c → Alongside e c (busid c) (devid c) (d c))
    (hE : ∀ c, H c → Exported e devices dev (busid c)) (hpath : dev.path.length ≤ 256)
    (hof : ∀ c, H c → Offered e devices dev c) (hW : WantedBy e H dev.busId) (hO : OneByOne e H) :
    ∃ log : Nat → Nat → List Handled, (∀ c, H c → Exchanged e c (d c) (log c)) ∧ ∀ c, H c →
      (∀ n, log c n ≠ [] → Awarded dev (log c n)) ∧
      (∀ n, (∀ g ∈ log c n, Modest g.2.1) → (d c n).phase ≠ .refused) ∧
      (Returns code → e.Fair →
        (∀ n t f i m k, (e.state n).whole.fine.cfg.flights t = some f → f.ev = .removeDevice i → f.code ≠ .lock .used m k) →
        Delivers e c (d c) → ∀ n, ((e.state n).front c = .accepted ∨
          ∃ k q, (e.state n).calls k = some (.listening q) ∧ c ∈ q ∧ ∀ m, n ≤ m → e.label m ≠ some (.dropServe k)) →
        ∃ m, n ≤ m ∧ ((d c m).phase = .attached ∨ Spoiled e c (d c) (log c) m)) := by
  obtain ⟨log, h1, h2, h3⟩ := C99_next hb ha hE hpath hof hW
  exact ⟨log, h1, fun c hc => h3 c hc (h2 hO c hc)⟩

end

namespace Samples

/-- The server is made with another device; the application adds this one.  Then three hosts, one after the other: each asks for the device, is given it, and hangs up, except for the last. -/
def inTurn : List Turn :=
  [.add devA, .enter 0 (asks (fun _ => busA) 0), .iterate 0, .hangup 0 .unexpectedEof, .iterate 0,
   .enter 1 (asks (fun _ => busA) 1), .iterate 1, .hangup 1 .other, .iterate 1,
   .enter 2 (asks (fun _ => busA) 2), .iterate 2]

theorem inTurnEnter (c : Nat) (hc : c < 3) : Turn.enter c (asks (fun _ => busA) c) ∈ inTurn := by
  unfold inTurn
  match c, hc with
  | 0, _ => simp
  | 1, _ => simp
  | 2, _ => simp

theorem inTurnFits : CrowdFits (oneEnv keyboardObj) dev [devB] (oneWorld Keyboard.new) (fun _ => busA) 3 3 inTurn
    (fun c => match c with | 0 => 3 | 1 => 7 | _ => 11) := by
  refine ⟨Nat.le_refl _, by decide +kernel, by decide +kernel, by decide, by decide +kernel, fun c hc => ⟨_, inTurnEnter c hc⟩, ?_, ?_, by decide +kernel⟩
  · intro c hc x hx
    have : ∀ c, c < 3 → (((netTurns (oneEnv keyboardObj) dev (crowdStart [devB] (oneWorld Keyboard.new)) inTurn).sys.conns c).all
        fun x => decide (x.input.bytes = [] ∧ (x.status = .running →
          (netTurns (oneEnv keyboardObj) dev (crowdStart [devB] (oneWorld Keyboard.new)) inTurn).ended c = none))) = true := by
      decide +kernel
    have := this c hc
    rw [hx] at this
    exact of_decide_eq_true this
  · intro x hx
    simp only [inTurn, List.mem_cons, List.not_mem_nil, or_false] at hx
    rcases hx with rfl | rfl | rfl | rfl | rfl | rfl | rfl | rfl | rfl | rfl | rfl <;> decide

theorem inTurnGo : ∀ i c bs, inTurn[i]? = some (.enter c bs) → ∀ j c2 bs2, j < i → inTurn[j]? = some (.enter c2 bs2) →
    backIn (netTurns (oneEnv keyboardObj) dev (crowdStart [devB] (oneWorld Keyboard.new)) (inTurn.take i)) c2 = true := by
  have back : ∀ i < 11, ∀ j < i, (match inTurn[i]?, inTurn[j]? with
      | some (Turn.enter _ _), some (Turn.enter c2 _) =>
        backIn (netTurns (oneEnv keyboardObj) dev (crowdStart [devB] (oneWorld Keyboard.new)) (inTurn.take i)) c2
      | _, _ => true) = true := by decide +kernel
  intro i c bs hi j c2 bs2 hj hj2
  have := back i (List.getElem?_eq_some_iff.mp hi).1 j hj
  rw [hi, hj2] at this
  exact this

theorem inTurnAdds : ∀ i c bs, inTurn[i]? = some (.enter c bs) → devA ∈ (inTurn.take i).flatMap Turn.gives := by
  intro i c bs hi
  cases i with
  | zero => cases hi
  | succ i => exact .head _

/-- All three attach it. -/
example : ∃ (e : MachineExec (oneShot keyboardObj) (oneEnv keyboardObj) dev
      (Machine.init (oneShot keyboardObj) [devB] (oneWorld Keyboard.new))) (d : Nat → Nat → Driver) (N : Nat),
    Behaves (oneShot keyboardObj) (oneEnv keyboardObj) ∧ (∀ c, c < 3 → Alongside e c busA 65538 (d c)) ∧
    (∀ c, c < 3 → Exported e [devB] devA busA) ∧ devA.path.length ≤ 256 ∧ (∀ c, c < 3 → Offered e [devB] devA c) ∧ WantedBy e (· < 3) devA.busId ∧ OneByOne e (· < 3) ∧
    Returns (oneShot keyboardObj) ∧ e.Fair ∧
    (∀ n t f i m k, (e.state n).whole.fine.cfg.flights t = some f → f.ev = .removeDevice i → f.code ≠ .lock .used m k) ∧
    (∀ c, c < 3 → Delivers e c (d c)) ∧
    (∀ c, c < 3 → ∃ n k q, (e.state n).calls k = some (.listening q) ∧ c ∈ q ∧ ∀ m, n ≤ m → e.label m ≠ some (.dropServe k)) ∧
    (∀ c, c < 3 → (d c N).phase = .attached) ∧
    (e.state N).whole.ended 0 ≠ none ∧ (e.state N).whole.ended 1 ≠ none ∧ (e.state N).whole.ended 2 = none ∧
    ∃ n x, (e.state n).whole.fine.cfg.conns 0 = some x ∧ x.status = .running ∧ (e.state n).whole.ended 0 ≠ none := by
  obtain ⟨e, d, h⟩ := crowded (oneShot_behaves keyboardObj) (oneShot_returns keyboardObj) (fun _ => 65538) inTurnFits
  obtain ⟨N, hN⟩ := h.last
  obtain ⟨h1, h2⟩ := hN N (Nat.le_refl _)
  obtain ⟨T, _, rest, _⟩ := h.after
  have own : ∀ n lb ev, e.label n = some (.inner lb) → tcpEvent lb = some ev → ∃ x : Turn, x.events = [ev] := fun n lb ev hl he =>
    have ⟨x, _, ho⟩ := h.owns n lb hl ev he
    ⟨x, ho⟩
  have given : ∀ n, Single devA (devicesBy e.label [devB] n) := fun n => single_prefix (by simp [Single, inTurn, Turn.gives, devA, devB]) (h.given n)
  refine ⟨e, d, N, oneShot_behaves _, h.alongside,
    fun c hc => ⟨by decide, given⟩, by decide,
    fun c hc n ha => (by
      obtain ⟨i, bs, h1, h2⟩ := h.before n c ha
      exact h2.subset (List.mem_append_right _ (inTurnAdds i c bs h1))), ⟨fun c hc ⟨n, ha⟩ => absurd (h.only n c ha) hc, fun n lb hl ht => ?_⟩,
    one_by_one (oneShot_behaves _) h inTurnGo, oneShot_returns _, h.fair, h.noRemovals, h.delivers, fun c hc => ?_, fun c hc => ?_, ?_, ?_, ?_, T 4, ?_⟩
  · obtain ⟨x, hx⟩ := own n lb _ hl ht
    cases x <;> cases hx
  · obtain ⟨n, hn⟩ := h.queued c hc
    exact ⟨n, 0, [c], hn, List.mem_singleton.mpr rfl, fun m _ => h.serves m 0⟩
  · rw [h1 c hc]
    have : ∀ c, c < 3 → ((Driver.start busA 65538).hear (outOf ((netTurns (oneEnv keyboardObj) dev
        (crowdStart [devB] (oneWorld Keyboard.new)) inTurn).sys.conns c))).phase = .attached := by decide +kernel
    exact this c hc
  · rw [h2]; decide +kernel
  · rw [h2]; decide +kernel
  · rw [h2]; decide +kernel
  · obtain ⟨_, r⟩ := rest 4 (by decide)
    have run : ((netTurns (oneEnv keyboardObj) dev (crowdStart [devB] (oneWorld Keyboard.new)) (inTurn.take 4)).sys.conns 0).all
        (fun x => decide (x.status = .running)) = true ∧
      ((netTurns (oneEnv keyboardObj) dev (crowdStart [devB] (oneWorld Keyboard.new)) (inTurn.take 4)).sys.conns 0).isSome = true ∧
      ((netTurns (oneEnv keyboardObj) dev (crowdStart [devB] (oneWorld Keyboard.new)) (inTurn.take 4)).ended 0) ≠ none := by decide +kernel
    rw [← r] at run
    obtain ⟨r1, r2, r3⟩ := run
    cases hc : (e.state (T 4)).whole.fine.cfg.conns 0 with
    | none => simp [restOf, Whole.tcp, hc] at r2
    | some x =>
      refine ⟨x, rfl, ?_, r3⟩
      simpa [restOf, Whole.tcp, hc] using r1

end Samples

end Usbip
