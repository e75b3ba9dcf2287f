import Verif.Props.Requests
import Verif.Props.Host
import Verif.Props.Examples
/-!
# C88: what a client is told about the data it has written
-/

namespace Usbip
open Spec Samples

/-- What C88 is about: the length in the reply to a submit is that of the data that come with the reply (mod 2^32), not
of the data that came with the request; for a build with debug assertions it is 0 if the request is not an IN request. -/
theorem C88_length {σ} (env : Env σ) (p : Profile) (s : Shared σ) (x : Conn) (rest : Stream)
    (h : Header) (a len b n c : UInt32) (setup data iso : Bytes)
    (hr : readCommand p x.input = .ok (.submit h a len b n c setup data iso, rest))
    (hrun : (x.iterate env p s .full).2.status = .running) :
    ∃ bytes, (x.iterate env p s .full).2.output = x.output ++ bytes ∧ 48 ≤ bytes.length ∧
      field bytes 24 4 = (bytes.length - 48) % 2 ^ 32 ∧
      (p.debugAssertions = true → h.direction.toNat ≠ 1 → field bytes 24 4 = 0) := by
  have hres := iterate_res env p s x .full
  generalize (x.iterate env p s .full).1 = s' at hres
  generalize (x.iterate env p s .full).2 = x' at hres hrun ⊢
  cases hres with
  | done e s' hr' hrel => rw [hr] at hr'; simp at hr'
  | missing e hr' hrel => simp at hrun
  | readPanic hr' => simp at hrun
  | answered cmd' rest' resp s' cur' bytes hr' hs hb hw =>
    rw [hr] at hr'
    simp only [Outcome.ok.injEq, Prod.mk.injEq] at hr'
    obtain ⟨rfl, rfl⟩ := hr'
    refine ⟨bytes, rfl, ?_⟩
    rcases serve_answers env p s x.current _ resp (by rw [hs]) with ⟨buf, rfl⟩ | rfl
    all_goals
      simp only [Resp.toBytes, Outcome.bind_eq_ok] at hb
      obtain ⟨_, _, _, hda, hb⟩ := hb
      simp only [Outcome.pure_eq, Outcome.ok.injEq] at hb
      subst hb
      rw [header_bytes]
      simp only [List.append_assoc, skip32, field32, List.length_append, be32_length,
        List.length_replicate, Nat.reduceLeDiff, Nat.reduceSub]
    · refine ⟨by omega, ?_, ?_⟩
      · rw [UInt32.toNat_ofNat']
        congr 1
        simp only [List.length_nil]
        omega
      · intro hp hdir
        have := debugAssert_ok hda hp
        have hne : h.direction ≠ dirIn := fun e => hdir (by rw [e]; rfl)
        simp only [hne, if_false, beq_iff_eq] at this
        exact congrArg UInt32.toNat this
    · exact ⟨by simp, rfl, fun _ _ => rfl⟩
  | writeFailed cmd' rest' resp s' cur' bytes n e hr' hs hb hw => simp at hw
  | writeCut cmd' rest' resp s' cur' bytes n hr' hs hb hw => simp at hw
  | servePanic cmd' rest' hr' hs => simp at hrun

/-- C88 for requests without data (what is missing: all others, see `C88_fails`): in a build with debug assertions, or if the reply is one a
client understands (no data come with the reply to a request that is not an IN request), the client is told that 0
bytes were transferred, and this is right exactly if there was nothing to transfer. -/
theorem C88_when_partial {σ} (env : Env σ) (p : Profile) (s : Shared σ) (x : Conn) (rest : Stream)
    (h : Header) (a len b n c : UInt32) (setup data iso : Bytes) (hout : h.direction.toNat = 0)
    (hr : readCommand p x.input = .ok (.submit h a len b n c setup data iso, rest))
    (hrun : (x.iterate env p s .full).2.status = .running)
    (hq : p.debugAssertions = true ∨ (x.iterate env p s .full).2.output.length = x.output.length + 48) :
    ∃ bytes, (x.iterate env p s .full).2.output = x.output ++ bytes ∧
      field bytes 24 4 = 0 ∧ (field bytes 24 4 = data.length ↔ data = []) := by
  obtain ⟨bytes, h1, h2, h3, h4⟩ := C88_length env p s x rest h a len b n c setup data iso hr hrun
  have h0 : field bytes 24 4 = 0 := by
    rcases hq with hq | hq
    · exact h4 hq (by omega)
    · rw [h1, List.length_append] at hq
      rw [h3, show bytes.length - 48 = 0 by omega]
  refine ⟨bytes, h1, h0, ?_⟩
  rw [h0]
  exact eq_comm.trans List.length_eq_zero_iff

/-- C88: the handlers of the library answer an OUT request with nothing (or not at all), whatever the host device, whatever its
state: so the second condition of `C88_when_partial` is met by all of their replies. -/
theorem C88_handlers (e : Endpoint) (hout : e.address.toNat < 128) (len : UInt32) (st : SetupPacket) (data : Bytes) :
    (∀ {τ} (lib : RusbLib τ) u, (rusbIface lib e len st data u).1 = .ok []) ∧
    (∀ {τ} (lib : RusbLib τ) u, st.requestType.toNat < 128 → (rusbDev lib len st data u).1 = .ok []) ∧
    (∀ {τ} (lib : NusbLib τ) u, (nusbIface lib e len st data u).1 = .ok [] ∨ (nusbIface lib e len st data u).1 = .panic) ∧
    (∀ {τ} (lib : NusbLib τ) u, st.requestType.toNat < 128 →
      (nusbDev lib len st data u).1 = .ok [] ∨ (nusbDev lib len st data u).1 = .panic) ∧
    (∀ c : Cdc, (c.handleUrb e).1 = .ok []) ∧
    (∀ k : Keyboard, st.requestType.toNat < 128 → (k.handleUrb e st).1 = .ok [] ∨ (k.handleUrb e st).1 = .panic) := by
  have hd : e.direction = .out := by
    cases h : e.direction with
    | out => rfl
    | «in» => have := (direction_in e).mp h; omega
  have hrt : st.requestType.toNat < 128 → st.requestType &&& 0x80 = 0 := by
    intro h
    have : ∀ n < 128, UInt8.ofNat n &&& 0x80 = 0 := by decide
    have := this _ h
    rwa [ofNat_toNat8] at this
  refine ⟨?_, ?_, ?_, ?_, ?_, ?_⟩
  · intro τ lib u
    unfold rusbIface
    dsimp only
    rw [hd]
    repeat' split
    all_goals first | rfl | contradiction
  · intro τ lib u h
    unfold rusbDev
    rw [if_pos (hrt h)]
  · intro τ lib u
    unfold nusbIface
    dsimp only
    rw [hd]
    repeat' split
    all_goals first | exact .inl rfl | exact .inr rfl | contradiction
  · intro τ lib u h
    unfold nusbDev
    split
    · exact .inr rfl
    · rw [if_pos (hrt h)]; exact .inl rfl
  · intro c
    unfold Cdc.handleUrb
    rw [hd]
    split <;> rfl
  · intro k h
    unfold Keyboard.handleUrb
    rw [hd]
    by_cases h0 : e.isEp0 = true
    · rw [if_pos h0, if_neg (fun hh => by rw [hh.1] at h; exact absurd h (by decide))]
      split
      · exact .inl rfl
      · exact .inr rfl
    · rw [if_neg h0]; exact .inl rfl

/-- C88 for the serial port, on any server, beside any other handlers, in any state: whatever a client writes, it is told
that all went well and that 0 bytes were transferred. -/
theorem C88_serial {σ} (env : Env σ) (h : Nat) (p : Profile) (s : Sys (σ × Cdc)) (c : Nat) (j : Job) (ep : Endpoint)
    (st : SetupPacket) (hj : job p s c = some j) (hu : j.urb h s.shared.world = some (ep, st)) (hout : ep.address.toNat < 128) :
    let bytes := newlySent s (s.step (hosting serialObj h env) p (.iterate c .full)) c
    bytes.length = 48 ∧ field bytes 20 4 = 0 ∧ field bytes 24 4 = 0 := by
  intro bytes
  have hstep := step_observed serialObj Cdc.write h env p s (.server (.iterate c .full))
  simp only [observe, hj, hu] at hstep
  obtain ⟨r, h1, _, _, h4, _⟩ := hstep
  have ha : (serialObj ep st s.shared.world.user.2).1 = .ok [] :=
    (C88_handlers ep hout 0 st []).2.2.2.2.1 s.shared.world.user.2
  rw [ha] at h4
  cases h1
  obtain ⟨_, h5, h6⟩ := h4.2 (.inr rfl) rfl (by decide)
  have hb : (bytes.drop 20).take 8 = List.replicate 8 0 := h6
  refine ⟨h5, ?_, ?_⟩
  · have : (bytes.drop 20).take 4 = List.replicate 4 0 := by
      have e := congrArg (List.take 4) hb
      rwa [List.take_take] at e
    unfold field
    rw [this]
    decide
  · have : (bytes.drop 24).take 4 = List.replicate 4 0 := by
      have e := congrArg (List.drop 4) hb
      rw [List.drop_take, List.drop_drop] at e
      exact e
    unfold field
    rw [this]
    decide

/-- A client that imports the serial port of the example and writes five bytes to it. -/
def writing : List (Event (Unit × Cdc)) :=
  [.connect 0 ⟨wireCmd (.reqImport 0 ([48, 45, 48, 45, 48] ++ List.replicate 27 0)) ++
    wireCmd (.submit ⟨1, 5, 65538, 0, 2⟩ 0 5 0 0 0 [0, 0, 0, 0, 0, 0, 0, 0] [104, 101, 108, 108, 111] []), .unexpectedEof⟩,
   .iterate 0 .full, .iterate 0 .full]

set_option maxRecDepth 100000 in
/-- C88 is false: five bytes written to the serial port of the example are taken, and 0 reported. -/
theorem C88_fails : ((serialSys.run (hosting serialObj 0 noHandlers) dev writing).conns 0).map
    (fun x => (x.status, (x.output.drop 320).length, field (x.output.drop 320) 20 4, field (x.output.drop 320) 24 4)) =
    some (.running, 48, 0, 0) := by
  decide +kernel

set_option maxRecDepth 100000 in
/-- The conditions of `C88_serial`: the submit of `writing`, with its five bytes, to endpoint 2. -/
example : ∃ j ep st, job dev (serialSys.run (hosting serialObj 0 noHandlers) dev (writing.take 2)) 0 = some j ∧
    j.urb 0 (serialSys.run (hosting serialObj 0 noHandlers) dev (writing.take 2)).shared.world = some (ep, st) ∧
    ep.address = 2 ∧ j.data = [104, 101, 108, 108, 111] :=
  ⟨_, _, _, rfl, rfl, rfl, rfl⟩

/-- ... and of `C88_when_partial`. -/
example : readCommand dev (⟨wireCmd (.submit ⟨1, 5, 65538, 0, 2⟩ 0 5 0 0 0 [0, 0, 0, 0, 0, 0, 0, 0] [104, 101, 108, 108, 111] []),
    .unexpectedEof⟩ : Stream) = .ok (.submit ⟨1, 5, 65538, 0, 2⟩ 0 5 0 0 0 [0, 0, 0, 0, 0, 0, 0, 0] [104, 101, 108, 108, 111] [],
    (⟨[], .unexpectedEof⟩ : Stream)) := by decide

end Usbip
