import Verif.Lemmas.Lost
/-!
# A device that is not given back is lost (C101)

A process that exports a device.  The task of the connection that has the device crashes, is dropped, or cannot write.  From then on no
Linux host gets the device.
-/

namespace Usbip
open Spec Samples

section
variable {τ : Type} {code : Code τ} {env : Env (HandlerId → τ)} {p : Profile} {devices : List Device} {dev : Device}
  {w : World (HandlerId → τ)}
  {e : MachineExec code env p (Machine.init code devices w)} {H : Nat → Prop} {busid : Nat → Bytes} {devid : Nat → UInt32}
  {d : Nat → Nat → Driver}

/-- C101: a host that was given the device and whose connection is over has given the device back, or has taken it along.  It has taken it
along for certain if its task panicked or was dropped.  Once a client (a host, or somebody else) has taken the device along: that stays
so; the device is not in the list any more; each host that was not answered before is told that there is no such device, and does not
attach it; and if its request arrives it is refused some time, unless something goes wrong for it as well. -/
theorem C101_lost (hb : Behaves code env) (ha : ∀ c, H c → Alongside e c (busid c) (devid c) (d c))
    (hE : ∀ c, H c → Exported e devices dev (busid c)) :
    ∃ log : Nat → Nat → List Handled, (∀ c, H c → Exchanged e c (d c) (log c)) ∧
      (∀ c, H c → ∀ n, Awarded dev (log c n) → ∀ y, (e.state n).whole.fine.cfg.conns c = some y → y.status ≠ .running →
        (GaveBack (e.state n) c ∨ TookAlong (e.state n) c dev) ∧
        (y.status = .panicked ∨ y.status = .cancelled → TookAlong (e.state n) c dev)) ∧
      ((∃ c, H c) → ∀ n c1, TookAlong (e.state n) c1 dev →
        (∀ m, n ≤ m → TookAlong (e.state m) c1 dev) ∧
        (∀ m, n ≤ m → (∀ t f, (e.state m).whole.fine.cfg.flights t = some f → f.held .avail ≠ some .w) →
          ∀ v ∈ (e.state m).whole.fine.cfg.shared.available, v.busId ≠ dev.busId) ∧
        ∀ c, H c → log c n = [] →
          (∀ m, log c m ≠ [] → Denied (log c m)) ∧
          (∀ m, (∀ g ∈ log c m, Modest g.2.1) → (d c m).phase ≠ .attached) ∧
          (Returns code → e.Fair →
            (∀ n t f i m k, (e.state n).whole.fine.cfg.flights t = some f → f.ev = .removeDevice i → f.code ≠ .lock .used m k) →
            Delivers e c (d c) → ∀ n, ((e.state n).front c = .accepted ∨
              ∃ k q, (e.state n).calls k = some (.listening q) ∧ c ∈ q ∧ ∀ m, n ≤ m → e.label m ≠ some (.dropServe k)) →
            ∃ m, n ≤ m ∧ ((d c m).phase = .refused ∨ Spoiled e c (d c) (log c) m))) := by
  obtain ⟨ls, L, hA⟩ := all_told hb e
  refine ⟨fun c n => (L c n).map (·.2), fun c hc => hA.exchanged hb ha hc, fun c hc n hg y hy hr => ?_, fun ⟨c0, hc0⟩ n c1 ht => ?_⟩
  · have := over_settled hb hA ha hE hc hg hy hr
    refine ⟨this, fun hs => this.resolve_left ?_⟩
    rintro ⟨z, hz, _, h⟩
    rw [hy] at hz
    cases hz
    rcases hs with hs | hs <;> rw [hs] at h <;> rcases h with h | ⟨_, h⟩ <;> cases h
  have hd := died_iff hb hA c1 n ht
  refine ⟨fun m hm => took_stays hb hA ht hm, fun m hm hw v hv => ?_, fun c hc h0 => ?_⟩
  · obtain ⟨y, hy, _, hyc⟩ := died_later hA hm hd
    have := (C81_explained code env hb p devices w _ _ (hA.told c1 m).inv.whole).2.2.2.2.2.1 hw
    rw [this] at hv
    exact ((whereabouts hA (hE c0 hc0).2 m).one c1 y hy hyc).2.1 v hv
  have h0 : L c n = [] := List.map_eq_nil_iff.mp h0
  have den : ∀ m, (L c m).map (·.2) ≠ [] → Denied ((L c m).map (·.2)) := by
    intro m hm
    have hm' : L c m ≠ [] := fun h => hm (List.map_eq_nil_iff.mpr h)
    refine denied hA ha hE hc hd ?_ h0 hm'
    apply Classical.byContradiction
    intro hlt
    obtain ⟨t, ht⟩ := hA.mono c (show m ≤ n by omega)
    rw [h0] at ht
    exact hm' (List.append_eq_nil_iff.mp ht).1
  have safe : ∀ m, (∀ g ∈ (L c m).map (·.2), Modest g.2.1) → (d c m).phase ≠ .attached := by
    intro m hmod hp
    obtain ⟨e0, rest, dv, h1, _, h3, _⟩ := (C92_safe code env p devices w e c _ _ _ (ha c hc) _ (hA.exchanged hb ha hc) m hmod).2.2.2.1 hp
    obtain ⟨g, l, g1, g2⟩ := den m (by rw [h1]; exact List.cons_ne_nil _ _)
    rw [g1] at h1
    cases h1
    rw [g2] at h3; cases h3
  refine ⟨den, safe, fun hret hfair hno hdel n hq => ?_⟩
  obtain ⟨m, hnm, alt⟩ := C92_returned code env p devices w e c _ _ _ hb hret hfair hno (ha c hc) hdel _ (hA.exchanged hb ha hc) n hq
  refine ⟨m, hnm, ?_⟩
  rcases alt with ⟨b1, b2, _⟩ | bad
  rotate_left
  · exact .inr bad
  by_cases hmod : ∀ g ∈ (L c m).map (·.2), Modest g.2.1
  rotate_left
  · exact .inr (.inl (Classical.byContradiction fun hn => hmod fun e he => Classical.byContradiction fun h => hn ⟨e, he, h⟩))
  have := safe m hmod
  left
  cases h : (d c m).phase <;> simp_all

end

namespace Samples

/-- Three hosts.  The first asks for the device, which it is given, but the answer cannot be written.  The others come later. -/
def lostTurns : List Turn :=
  [.enter 0 (asks (fun _ => busA) 0), .iterate 0 (.fail 7 .other),
   .enter 1 (asks (fun _ => busA) 1), .iterate 1, .enter 2 (asks (fun _ => busA) 2), .iterate 2]

theorem lostEnter (c : Nat) (hc : c < 3) : Turn.enter c (asks (fun _ => busA) c) ∈ lostTurns := by
  unfold lostTurns
  match c, hc with
  | 0, _ => simp
  | 1, _ => simp
  | 2, _ => simp

theorem lostFits : CrowdFits (oneEnv keyboardObj) dev [devA, devB] (oneWorld Keyboard.new) (fun _ => busA) 3 3 lostTurns
    (fun c => match c with | 0 => 2 | 1 => 4 | _ => 6) := by
  refine ⟨Nat.le_refl _, by decide +kernel, by decide +kernel, by decide, by decide +kernel, fun c hc => ⟨_, lostEnter c hc⟩, ?_, ?_, by decide +kernel⟩
  · intro c hc x hx
    have : ∀ c, c < 3 → (((netTurns (oneEnv keyboardObj) dev (crowdStart [devA, devB] (oneWorld Keyboard.new)) lostTurns).sys.conns c).all
        fun x => decide (x.input.bytes = [] ∧ (x.status = .running →
          (netTurns (oneEnv keyboardObj) dev (crowdStart [devA, devB] (oneWorld Keyboard.new)) lostTurns).ended c = none))) = true := by
      decide +kernel
    have := this c hc
    rw [hx] at this
    exact of_decide_eq_true this
  · intro x hx
    simp only [lostTurns, List.mem_cons, List.not_mem_nil, or_false] at hx
    rcases hx with rfl | rfl | rfl | rfl | rfl | rfl <;> decide

/-- The first has taken the device along before the others ask; both are refused. -/
example : ∃ (e : MachineExec (oneShot keyboardObj) (oneEnv keyboardObj) dev
      (Machine.init (oneShot keyboardObj) [devA, devB] (oneWorld Keyboard.new))) (d : Nat → Nat → Driver) (T N : Nat),
    Behaves (oneShot keyboardObj) (oneEnv keyboardObj) ∧ (∀ c, c < 3 → Alongside e c busA 65538 (d c)) ∧
    (∀ c, c < 3 → Exported e [devA, devB] devA busA) ∧
    Returns (oneShot keyboardObj) ∧ e.Fair ∧
    (∀ n t f i m k, (e.state n).whole.fine.cfg.flights t = some f → f.ev = .removeDevice i → f.code ≠ .lock .used m k) ∧
    (∀ c, c < 3 → Delivers e c (d c)) ∧
    (∀ c, c < 3 → ∃ n k q, (e.state n).calls k = some (.listening q) ∧ c ∈ q ∧ ∀ m, n ≤ m → e.label m ≠ some (.dropServe k)) ∧
    TookAlong (e.state T) 0 devA ∧ (e.state T).front 1 ≠ .accepted ∧ (e.state T).front 2 ≠ .accepted ∧
    (d 1 N).phase = .refused ∧ (d 2 N).phase = .refused := by
  obtain ⟨e, d, h⟩ := crowded (oneShot_behaves keyboardObj) (oneShot_returns keyboardObj) (fun _ => 65538) lostFits
  obtain ⟨N, hN⟩ := h.last
  obtain ⟨h1, h2⟩ := hN N (Nat.le_refl _)
  obtain ⟨T, mono, rest, front⟩ := h.after
  have given : ∀ n, Single devA (devicesBy e.label [devA, devB] n) :=
    fun n => single_prefix (by simp [Single, lostTurns, Turn.gives, devA, devB]) (h.given n)
  obtain ⟨_, r⟩ := rest 2 (by decide)
  have took : ((netTurns (oneEnv keyboardObj) dev (crowdStart [devA, devB] (oneWorld Keyboard.new)) (lostTurns.take 2)).sys.conns 0).any
      (fun x => decide (x.status ≠ .running ∧ x.current = some devA.busId)) = true := by decide +kernel
  rw [← r] at took
  have later : ∀ c, 0 < c → c < 3 → (e.state (T 2)).front c ≠ .accepted := by
    intro c h0 h3 hacc
    obtain ⟨i, bs, hi, hT⟩ := front _ c hacc
    have hi2 : 2 ≤ i := by
      match i, hi with
      | 0, hi => cases hi; omega
      | 1, hi => cases hi
      | i + 2, _ => omega
    have hlen : i < lostTurns.length := (List.getElem?_eq_some_iff.mp hi).1
    have e3 : T 3 = T 2 := by
      have := mono 2 3 (by decide) (by decide)
      have := mono 3 (i + 1) (by omega) (by omega)
      omega
    obtain ⟨_, r3⟩ := rest 3 (by decide)
    rw [e3, r] at r3
    have := congrArg (fun N => (N.sys.conns 1).isSome) r3
    revert this
    decide +kernel
  have ref : ∀ c, 0 < c → c < 3 → (d c N).phase = .refused := by
    intro c h0 hc
    rw [h1 c hc]
    have : ∀ c, c < 3 → 0 < c → ((Driver.start busA 65538).hear (outOf ((netTurns (oneEnv keyboardObj) dev
        (crowdStart [devA, devB] (oneWorld Keyboard.new)) lostTurns).sys.conns c))).phase = .refused := by decide +kernel
    exact this c hc h0
  refine ⟨e, d, T 2, N, oneShot_behaves _, h.alongside, fun c hc => ⟨by decide, given⟩, oneShot_returns _, h.fair, h.noRemovals,
    h.delivers, fun c hc => ?_, ?_, later 1 (by decide) (by decide), later 2 (by decide) (by decide), ref 1 (by decide) (by decide),
    ref 2 (by decide) (by decide)⟩
  · obtain ⟨n, hn⟩ := h.queued c hc
    exact ⟨n, 0, [c], hn, List.mem_singleton.mpr rfl, fun m _ => h.serves m 0⟩
  · cases hc : (e.state (T 2)).whole.fine.cfg.conns 0 with
    | none => simp [restOf, Whole.tcp, hc] at took
    | some x =>
      refine ⟨x, hc, ?_⟩
      simpa [restOf, Whole.tcp, hc] using took

end Samples

end Usbip
