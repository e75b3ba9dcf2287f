import Verif.Lemmas.Granted
import Verif.Props.Found
/-!
# A Linux host is given the device it asks for (C96)

A process that exports a device, a Linux host that asks for it, and any other clients, none of which asks for this device: the host is
not refused; it is given this device, and some time it has attached it.
-/

namespace Usbip
open Spec Samples

section
variable {τ : Type} {code : Code τ} {env : Env (HandlerId → τ)} {p : Profile} {devices : List Device} {dev : Device}
  {w : World (HandlerId → τ)}
  {e : MachineExec code env p (Machine.init code devices w)} {c : Nat} {busid : Bytes} {devid : UInt32} {d : Nat → Driver}

theorem given_told (hb : Behaves code env) (ha : Alongside e c busid devid d) (hE : Exported e devices dev busid)
    (hO : Offered e devices dev c) (hU : Unclaimed e c busid)
    (f : Nat → List (MachineLabel (HandlerId → τ)) × List (Bytes × Handled))
    (hf : ∀ n, Told e c n (f n).1 (f n).2 ∧ (f n).2 <+: (f (n + 1)).2) (h0 : (f 0).1 = [])
    (hs : ∀ n, (f (n + 1)).1 = (f n).1 ++ (e.label n).toList) :
    (∀ n, (∀ g l, (f n).2.map (·.2) = g :: l → g.1 = .reqImport 0 busid ∧ g.2.1 = .repImport 0 (some dev)) ∧
      ((∀ g ∈ (f n).2.map (·.2), Modest g.2.1) → (d n).phase ≠ .refused)) ∧
    (Returns code → e.Fair →
      (∀ n t f i m k, (e.state n).whole.fine.cfg.flights t = some f → f.ev = .removeDevice i → f.code ≠ .lock .used m k) →
      Delivers e c d → ∀ n, ((e.state n).front c = .accepted ∨ ∃ k q, (e.state n).calls k = some (.listening q) ∧ c ∈ q ∧
        ∀ m, n ≤ m → e.label m ≠ some (.dropServe k)) →
      ∃ m, n ≤ m ∧ (((d m).phase = .attached ∧ readDevInfo (((d m).heard.drop 8).take 312) = devInfo dev) ∨
        (∃ e ∈ (f m).2.map (·.2), ¬ Modest e.2.1) ∨ Overrun ((f m).2.map (·.2)) (d m).heard ∨ (e.state m).whole.ended c ≠ none ∨
        ∃ y, (e.state m).whole.fine.cfg.conns c = some y ∧ (y.status = .panicked ∨ e.Faulted c m y))) := by
  have hx := exchanged_told hb ha f hf
  have key : ∀ n g l, (f n).2.map (·.2) = g :: l → g.1 = .reqImport 0 busid ∧ g.2.1 = .repImport 0 (some dev) := by
    intro n g l hl
    constructor
    · have h1 := hx.asked n
      have h2 := (ha.said_mono (Nat.zero_le n)).1
      rw [ha.start] at h2
      obtain ⟨t, ht⟩ := h2
      rw [← ht, hl] at h1
      simp only [Driver.start, List.map_cons, List.cons_append, List.cons_prefix_cons] at h1
      exact h1.1
    · rcases (spare hb ha hE hO hU f hf h0 hs n).ok with ⟨g', t, h1, h2⟩ | ⟨h1, _⟩
      · rw [h1, List.map_cons] at hl
        cases hl
        exact h2
      · rw [h1] at hl; cases hl
  have safe : ∀ n, (∀ g ∈ (f n).2.map (·.2), Modest g.2.1) → (d n).phase ≠ .refused := by
    intro n hm hp
    obtain ⟨g, h1, _, h3⟩ := (C92_safe code env p devices w e c busid devid d ha _ hx n hm).2.2.2.2 hp
    have := (key n g [] h1).2
    rw [h3] at this
    cases this
  refine ⟨fun n => ⟨key n, safe n⟩, fun hret hfair hno hdel n hq => ?_⟩
  obtain ⟨m, hnm, alt⟩ := C92_returned code env p devices w e c busid devid d hb hret hfair hno ha hdel _ hx n hq
  refine ⟨m, hnm, ?_⟩
  rcases alt with ⟨b1, b2, _⟩ | bad
  rotate_left
  · exact .inr bad
  by_cases hmod : ∀ g ∈ (f m).2.map (·.2), Modest g.2.1
  rotate_left
  · exact .inr (.inl (Classical.byContradiction fun hn => hmod fun e he => Classical.byContradiction fun h => hn ⟨e, he, h⟩))
  have hat : (d m).phase = .attached := by
    have b3 := safe m hmod
    cases h : (d m).phase <;> simp_all
  exact .inl ⟨hat, ((found_told ha hE f (fun n => (hf n).1) h0 hs hx).1 m hmod b2).1 hat⟩

/-- C96: the first thing that the server answers to the host is that it has been given the device; and the host never finds itself
refused.  Once it is waiting to be accepted, some time it has attached the device, and knows of the device what the device's record
says; unless the connection is gone, or a response did not fit its request. -/
theorem C96_given (hb : Behaves code env) (ha : Alongside e c busid devid d) (hE : Exported e devices dev busid)
    (hO : Offered e devices dev c) (hU : Unclaimed e c busid) :
    ∃ log, Exchanged e c d log ∧
      (∀ n, (∀ g l, log n = g :: l → g.1 = .reqImport 0 busid ∧ g.2.1 = .repImport 0 (some dev)) ∧
        ((∀ g ∈ log n, Modest g.2.1) → (d n).phase ≠ .refused)) ∧
      (Returns code → e.Fair →
        (∀ n t f i m k, (e.state n).whole.fine.cfg.flights t = some f → f.ev = .removeDevice i → f.code ≠ .lock .used m k) →
        Delivers e c d → ∀ n, ((e.state n).front c = .accepted ∨ ∃ k q, (e.state n).calls k = some (.listening q) ∧ c ∈ q ∧
          ∀ m, n ≤ m → e.label m ≠ some (.dropServe k)) →
        ∃ m, n ≤ m ∧ (((d m).phase = .attached ∧ readDevInfo (((d m).heard.drop 8).take 312) = devInfo dev) ∨
          (∃ e ∈ log m, ¬ Modest e.2.1) ∨ Overrun (log m) (d m).heard ∨ (e.state m).whole.ended c ≠ none ∨
          ∃ y, (e.state m).whole.fine.cfg.conns c = some y ∧ (y.status = .panicked ∨ e.Faulted c m y))) := by
  obtain ⟨f, hf, h0, hs⟩ := exists_told hb e c
  obtain ⟨h1, h2⟩ := given_told hb ha hE hO hU f hf h0 hs
  exact ⟨_, exchanged_told hb ha f hf, h1, h2⟩

end

/-! ## Cases -/

namespace Samples

/-- C96 on a process that exports a keyboard: at time 2 the host is waiting to be accepted; all hypotheses are met, and some time
the host has attached the keyboard. -/
example : ∃ (e : MachineExec (oneShot keyboardObj) (oneEnv keyboardObj) dev
      (Machine.init (oneShot keyboardObj) [devA] (oneWorld Keyboard.new))) (d : Nat → Driver) (n1 : Nat),
    Behaves (oneShot keyboardObj) (oneEnv keyboardObj) ∧ Alongside e 0 busA 65538 d ∧ Exported e [devA] devA busA ∧
    Offered e [devA] devA 0 ∧ Unclaimed e 0 busA ∧ Returns (oneShot keyboardObj) ∧ e.Fair ∧
    (∀ n t f i m k, (e.state n).whole.fine.cfg.flights t = some f → f.ev = .removeDevice i → f.code ≠ .lock .used m k) ∧
    Delivers e 0 d ∧ (∃ k q, (e.state 2).calls k = some (.listening q) ∧ 0 ∈ q ∧ ∀ m, 2 ≤ m → e.label m ≠ some (.dropServe k)) ∧
    (d n1).phase = .attached := by
  obtain ⟨e, d, keys, n0, n1, n2, h⟩ := typedOnce
  refine ⟨e, d, n1, oneShot_behaves _, h.alongside, ⟨h.sole.named, h.sole.single⟩,
    (fun n _ => by rw [h.given n]; exact List.mem_singleton.mpr rfl),
    ⟨fun c' hc ⟨n, ha⟩ => absurd ha (h.lone n c' hc), fun n lb hl => h.kept n lb _ hl⟩, oneShot_returns _, h.fair, h.noRemovals,
    h.delivers, ⟨0, [0], h.queued.1, List.mem_singleton.mpr rfl, fun m _ => h.queued.2 m 0⟩, ?_⟩
  rw [h.at1]; decide +kernel

end Samples

end Usbip
