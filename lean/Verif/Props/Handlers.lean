import Verif.Spec.Handlers
import Verif.Lemmas.Urb
import Verif.Props.Crash
/-!
# The keyboard and serial handlers: C36, C37, C38, C39, C40
-/

namespace Usbip
open Spec Samples

/-! ## C36 -/

/-- The release report the code sends. -/
def codeUp : Bytes := List.replicate 6 0

theorem isEp0_iff (e : Endpoint) : e.isEp0 = true ↔ e.address.toNat % 128 = 0 := by
  have h : (e.address &&& 0x7F).toNat = e.address.toNat % 128 := by
    rw [UInt8.toNat_and]
    exact Nat.and_two_pow_sub_one_eq_mod _ 7
  unfold Endpoint.isEp0
  rw [beq_iff_eq, u8_eq_iff, h]
  rfl

theorem dataIn_iff (e : Endpoint) : DataIn e ↔ e.isEp0 = false ∧ e.direction = .in := by
  rw [direction_in, ← Bool.not_eq_true, isEp0_iff]
  unfold DataIn
  have := u8_lt e.address
  omega

/-- Only polls change the keyboard. -/
theorem handleUrb_other (k : Keyboard) (e : Endpoint) (s : SetupPacket) (h : ¬ DataIn e) :
    (k.handleUrb e s).2 = k := by
  rw [dataIn_iff] at h
  unfold Keyboard.handleUrb
  cases h0 : e.isEp0 with
  | true => simp only [if_true]; repeat' split <;> try rfl
  | false =>
    cases hd : e.direction with
    | out => rfl
    | «in» => exact absurd ⟨h0, hd⟩ h

theorem handleUrb_poll (k : Keyboard) (e : Endpoint) (s : SetupPacket) (h : DataIn e) :
    k.handleUrb e s =
      if k.keyDown then (.ok codeUp, { k with keyDown := false })
      else match k.pending with
        | r :: rest => (.ok (keyDownReport r), { k with pending := rest, keyDown := true })
        | [] => (.ok [], k) := by
  obtain ⟨h0, hd⟩ := (dataIn_iff e).mp h
  unfold Keyboard.handleUrb
  rw [h0, hd]
  rfl

/-- What is still to be read. -/
def unread (k : Keyboard) : List Bytes :=
  (if k.keyDown then [codeUp] else []) ++ script codeUp k.pending

theorem expected_run (ops : List KOp) : ∀ (k : Keyboard) (evs : List KeyReport) (n : Nat),
    n ≤ (script codeUp evs).length → (script codeUp evs).drop n = unread k →
    (typeAndPoll k ops).1 = (expected codeUp evs n ops).map HRes.ok := by
  induction ops with
  | nil => intros; rfl
  | cons op ops ih =>
    intro k evs n hle hk
    cases op with
    | push r =>
      have hs : script codeUp (evs ++ [r]) = script codeUp evs ++ [keyDownReport r, codeUp] := by
        simp [script]
      refine ih { k with pending := k.pending ++ [r] } (evs ++ [r]) n ?_ ?_
      · rw [hs, List.length_append]; omega
      · rw [hs, List.drop_append_of_le_length hle, hk]
        simp [unread, script]
    | urb ep setup =>
      simp only [typeAndPoll, expected]
      by_cases hp : DataIn ep
      · rw [if_pos hp, if_pos hp, handleUrb_poll k ep setup hp]
        cases hkd : k.keyDown with
        | true =>
          have hk' : (script codeUp evs).drop n = codeUp :: unread { k with keyDown := false } := by
            rw [hk]; simp [unread, hkd]
          have hlt : n < (script codeUp evs).length := by
            rcases Nat.lt_or_ge n (script codeUp evs).length with h | h
            · exact h
            · rw [List.drop_eq_nil_of_le h] at hk'; simp at hk'
          rw [List.drop_eq_getElem_cons hlt, List.cons.injEq] at hk'
          rw [List.getElem?_eq_getElem hlt, hk'.1]
          simp only [if_true, List.map_cons]
          rw [ih _ evs (n + 1) hlt hk'.2]
        | false =>
          cases hpe : k.pending with
          | cons r rest =>
            have hk' : (script codeUp evs).drop n
                = keyDownReport r :: unread { k with pending := rest, keyDown := true } := by
              rw [hk]; simp [unread, hkd, hpe, script]
            have hlt : n < (script codeUp evs).length := by
              rcases Nat.lt_or_ge n (script codeUp evs).length with h | h
              · exact h
              · rw [List.drop_eq_nil_of_le h] at hk'; simp at hk'
            rw [List.drop_eq_getElem_cons hlt, List.cons.injEq] at hk'
            rw [List.getElem?_eq_getElem hlt, hk'.1]
            simp only [Bool.false_eq_true, if_false, List.map_cons]
            rw [ih _ evs (n + 1) hlt hk'.2]
          | nil =>
            have hk' : (script codeUp evs).drop n = [] := by
              rw [hk]; simp [unread, hkd, hpe, script]
            have hge : (script codeUp evs).length ≤ n := List.drop_eq_nil_iff.mp hk'
            rw [List.getElem?_eq_none hge]
            simp only [Bool.false_eq_true, if_false, List.map_cons]
            rw [ih k evs n hle hk]
      · rw [if_neg hp, if_neg hp, handleUrb_other k ep setup hp]
        exact ih k evs n hle hk

/-- C36: for every history of a new keyboard, the polls are answered as the specification says:
each takes the next unread item of "each queued event pressed, then released", or gets no data. -/
theorem C36_polls (ops : List KOp) :
    (typeAndPoll Keyboard.new ops).1 = (expected codeUp [] 0 ops).map HRes.ok :=
  expected_run ops Keyboard.new [] 0 (Nat.zero_le _) rfl

theorem expected_prefix (ops : List KOp) : ∀ (evs : List KeyReport) (n : Nat),
    n ≤ (script codeUp evs).length →
    ∃ m, (expected codeUp evs n ops).filter (fun b => !b.isEmpty)
      = ((script codeUp (evs ++ queued ops)).drop n).take m := by
  induction ops with
  | nil => intro evs n _; exact ⟨0, by simp [expected]⟩
  | cons op ops ih =>
    intro evs n hle
    cases op with
    | push r =>
      have hs : script codeUp (evs ++ [r]) = script codeUp evs ++ [keyDownReport r, codeUp] := by
        simp [script]
      obtain ⟨m, hm⟩ := ih (evs ++ [r]) n (by rw [hs, List.length_append]; omega)
      exact ⟨m, by simpa [expected, queued] using hm⟩
    | urb ep setup =>
      have hq : queued (.urb ep setup :: ops) = queued ops := rfl
      rw [hq]
      simp only [expected]
      by_cases hp : DataIn ep
      · rw [if_pos hp]
        by_cases hlt : n < (script codeUp evs).length
        · rw [List.getElem?_eq_getElem hlt]
          obtain ⟨m, hm⟩ := ih evs (n + 1) hlt
          refine ⟨m + 1, ?_⟩
          have happ : script codeUp (evs ++ queued ops) = script codeUp evs ++ script codeUp (queued ops) := by
            simp [script]
          have hlt' : n < (script codeUp (evs ++ queued ops)).length := by
            rw [happ, List.length_append]; omega
          have hget : (script codeUp (evs ++ queued ops))[n] = (script codeUp evs)[n] := by
            simp only [happ]; rw [List.getElem_append_left hlt]
          have hne : (script codeUp evs)[n] ≠ [] := by
            have : (script codeUp evs)[n] ∈ script codeUp evs := List.getElem_mem hlt
            generalize (script codeUp evs)[n] = b at this
            simp only [script, List.mem_flatMap, List.mem_cons, List.not_mem_nil, or_false] at this
            obtain ⟨r, _, rfl | rfl⟩ := this
            · simp [keyDownReport]
            · decide
          rw [List.drop_eq_getElem_cons hlt', List.take_succ_cons, hget, ← hm]
          simp [hne]
        · rw [List.getElem?_eq_none (by omega)]
          obtain ⟨m, hm⟩ := ih evs n hle
          exact ⟨m, by simpa using hm⟩
      · rw [if_neg hp]
        exact ih evs n hle

/-- C36, first in first out: the non-empty reports delivered are an initial part of "each queued
event pressed, then released"; none is lost, repeated or reordered. -/
theorem C36_fifo (ops : List KOp) : ∃ m,
    ((typeAndPoll Keyboard.new ops).1.map HRes.bytes).filter (fun b => !b.isEmpty)
      = (script codeUp (queued ops)).take m := by
  obtain ⟨m, hm⟩ := expected_prefix ops [] 0 (Nat.zero_le _)
  refine ⟨m, ?_⟩
  rw [C36_polls, List.map_map]
  have : (HRes.bytes ∘ HRes.ok) = id := rfl
  rw [this, List.map_id]
  simpa using hm

def k1 : KeyReport := ⟨0, #v[4, 0, 0, 0, 0, 0]⟩
def k2 : KeyReport := ⟨2, #v[5, 0, 0, 0, 0, 0]⟩
def poll : KOp := .urb ⟨0x81, 3, 8, 10⟩ ⟨0, 0, 0, 0, 0⟩

/-- Two events, interleaved with an empty poll, a SET_IDLE and polls. -/
example : (typeAndPoll Keyboard.new [poll, .push k1, poll, .push k2,
      .urb ⟨0, 0, 64, 0⟩ ⟨0x21, 0x0A, 0, 0, 0⟩, poll, poll, poll, poll]).1
    = [.ok [], .ok [0, 0, 4, 0, 0, 0, 0, 0], .ok codeUp, .ok [2, 0, 5, 0, 0, 0, 0, 0], .ok codeUp,
       .ok []] := by decide

/-! ## C37 -/

set_option maxRecDepth 100000 in
/-- C37: `from_ascii` is the usage table on the characters it lists, with no modifier and a single
key, and panics on every other byte. -/
theorem C37_table (a : UInt8) : KeyReport.fromAscii a =
    match usageTable.lookup a with
    | some u => .ok ⟨0, #v[u, 0, 0, 0, 0, 0]⟩
    | none => .panic := by
  have h : ∀ n < 256, KeyReport.fromAscii (UInt8.ofNat n) =
      match usageTable.lookup (UInt8.ofNat n) with
      | some u => .ok ⟨0, #v[u, 0, 0, 0, 0, 0]⟩
      | none => .panic := by decide
  have := h a.toNat (u8_lt a)
  rwa [ofNat_toNat8] at this

/-- Reading a key code back: CR is the only character not found in the reversed table. -/
def readsBack (n : Nat) : Bool :=
  match KeyReport.fromAscii (UInt8.ofNat n) with
  | .ok r => (UInt8.ofNat n == 13 && r.keys[0] == 40) ||
      ((usageTable.map Prod.swap).lookup r.keys[0] == some (UInt8.ofNat n))
  | _ => true

set_option maxRecDepth 100000 in
theorem readsBack_all : ∀ n < 256, readsBack n = true := by decide

/-- C37: two different characters give the same report only if they are CR and LF. -/
theorem C37_injective (a b : UInt8) (r : KeyReport) (ha : KeyReport.fromAscii a = .ok r)
    (hb : KeyReport.fromAscii b = .ok r) :
    a = b ∨ (a = 13 ∧ b = 10) ∨ (a = 10 ∧ b = 13) := by
  have key : ∀ n < 256, ∀ r, KeyReport.fromAscii (UInt8.ofNat n) = .ok r →
      (UInt8.ofNat n = 13 ∧ r.keys[0] = 40) ∨
      ((usageTable.map Prod.swap).lookup r.keys[0] = some (UInt8.ofNat n)) := by
    intro n hn r hr
    have h := readsBack_all n hn
    unfold readsBack at h
    rw [hr] at h
    simpa using h
  have h1 := key a.toNat (u8_lt a) r (by rwa [ofNat_toNat8])
  have h2 := key b.toNat (u8_lt b) r (by rwa [ofNat_toNat8])
  rw [ofNat_toNat8] at h1 h2
  have h40 : (usageTable.map Prod.swap).lookup 40 = some 10 := by decide
  rcases h1 with ⟨h1, h1'⟩ | h1 <;> rcases h2 with ⟨h2, h2'⟩ | h2
  · exact Or.inl (h1.trans h2.symm)
  · rw [h1', h40] at h2
    exact Or.inr (Or.inl ⟨h1, (Option.some.inj h2).symm⟩)
  · rw [h2', h40] at h1
    exact Or.inr (Or.inr ⟨(Option.some.inj h1).symm, h2⟩)
  · exact Or.inl (Option.some.inj (h1.symm.trans h2))

example : KeyReport.fromAscii 104 = .ok ⟨0, #v[11, 0, 0, 0, 0, 0]⟩ ∧ KeyReport.fromAscii 65 = .panic ∧
    KeyReport.fromAscii 13 = KeyReport.fromAscii 10 := by decide

/-! ## C38 -/

/-- The keyboard's own report descriptor declares reports of 64 bits. -/
theorem C38_declared : inputBits 100 0 0 0 Keyboard.new.reportDescriptor = 64 := by decide

/-- C38 for key-down reports (what is missing: key-up reports, see `C38_fails`): every report
delivered is empty, the 6-byte key-up report, or has the declared size. -/
theorem C38_size_partial (ops : List KOp) (r : HRes) (h : r ∈ (typeAndPoll Keyboard.new ops).1) :
    r = .ok [] ∨ r = .ok codeUp ∨
    ∃ b, r = .ok b ∧ 8 * b.length = inputBits 100 0 0 0 Keyboard.new.reportDescriptor := by
  have hexp : ∀ (ops : List KOp) (evs : List KeyReport) (n : Nat), ∀ b ∈ expected codeUp evs n ops,
      b = [] ∨ b = codeUp ∨ b.length = 8 := by
    intro ops
    induction ops with
    | nil => intro _ _ b hb; simp [expected] at hb
    | cons op ops ih =>
      intro evs n b hb
      cases op with
      | push r => exact ih _ _ b hb
      | urb ep s =>
        simp only [expected] at hb
        split at hb
        · split at hb
          · rename_i x hx
            rcases List.mem_cons.mp hb with rfl | hb
            · have := List.mem_of_getElem? hx
              simp only [script, List.mem_flatMap, List.mem_cons, List.not_mem_nil, or_false] at this
              obtain ⟨r, _, h | h⟩ := this
              · right; right; rw [h]; simp [keyDownReport]
              · exact Or.inr (Or.inl h)
            · exact ih _ _ b hb
          · rcases List.mem_cons.mp hb with rfl | hb
            · exact Or.inl rfl
            · exact ih _ _ b hb
        · exact ih _ _ b hb
  rw [C36_polls, List.mem_map] at h
  obtain ⟨b, hb, rfl⟩ := h
  rcases hexp ops [] 0 b hb with h | h | h
  · exact Or.inl (by rw [h])
  · exact Or.inr (Or.inl (by rw [h]))
  · exact Or.inr (Or.inr ⟨b, rfl, by rw [C38_declared, h]⟩)

/-- C38 fails: after one key press the host receives a report of 48 bits instead of 64. -/
theorem C38_fails : ∃ ops b, .ok b ∈ (typeAndPoll Keyboard.new ops).1 ∧ b ≠ [] ∧
    8 * b.length ≠ inputBits 100 0 0 0 Keyboard.new.reportDescriptor :=
  ⟨[.push k1, poll, poll], codeUp, by decide, by decide, by decide⟩

/-! ## C39, C40 -/

theorem cdc_step (c : Cdc) (e : Endpoint) :
    (HRes.bytes (c.handleUrb e).1 ++ (c.handleUrb e).2.txBuffer = c.txBuffer) := by
  unfold Cdc.handleUrb
  split
  · simp [HRes.bytes]
  · cases e.direction <;> simp [HRes.bytes]

theorem serve_conserves (ops : List COp) : ∀ c : Cdc,
    (Spec.serve c ops).1.flatMap (fun x => HRes.bytes x.2) ++ (Spec.serve c ops).2.txBuffer
      = c.txBuffer ++ written ops := by
  induction ops with
  | nil => intro c; simp [Spec.serve, written]
  | cons op ops ih =>
    intro c
    cases op with
    | write b =>
      simp only [Spec.serve]
      rw [ih]
      simp [written]
    | urb e =>
      simp only [Spec.serve, List.flatMap_cons]
      rw [List.append_assoc, ih, ← List.append_assoc, cdc_step]
      simp [written]

/-- C39 for every history of a new serial port: all replies in order, whatever the transfers they answer, followed by
what is still buffered, are exactly the bytes written. -/
theorem C39_conserved (ops : List COp) :
    (Spec.serve Cdc.new ops).1.flatMap (fun x => HRes.bytes x.2) ++ (Spec.serve Cdc.new ops).2.txBuffer = written ops := by
  rw [serve_conserves]; rfl

/-- Two bytes are taken by a control request, one by a bulk transfer, one stays. -/
example : Spec.serve Cdc.new [.write [1, 2], .urb ⟨0x80, 0, 64, 0⟩, .write [3], .urb ⟨0x82, 2, 64, 0⟩, .write [4]]
    = ([(⟨0x80, 0, 64, 0⟩, .ok [1, 2]), (⟨0x82, 2, 64, 0⟩, .ok [3])], ⟨[4]⟩) := rfl

/-- C39: for every history of a new serial port in which no control or isochronous IN request
reaches the interface, the bulk IN replies in order, followed by what is still buffered, are
exactly the bytes written. -/
theorem C39_exactly_once (ops : List COp)
    (h : ∀ e, .urb e ∈ ops → e.attributes.toNat = 2 ∨ e.attributes.toNat = 3 ∨ e.address.toNat < 128) :
    ((Spec.serve Cdc.new ops).1.filter (fun x => decide (BulkIn x.1))).flatMap (fun x => HRes.bytes x.2)
      ++ (Spec.serve Cdc.new ops).2.txBuffer = written ops := by
  have hfil : ∀ (ops : List COp) (c : Cdc),
      (∀ e, .urb e ∈ ops → e.attributes.toNat = 2 ∨ e.attributes.toNat = 3 ∨ e.address.toNat < 128) →
      ((Spec.serve c ops).1.filter (fun x => decide (BulkIn x.1))).flatMap (fun x => HRes.bytes x.2)
        = (Spec.serve c ops).1.flatMap (fun x => HRes.bytes x.2) := by
    intro ops
    induction ops with
    | nil => intros; rfl
    | cons op ops ih =>
      intro c h
      cases op with
      | write b => exact ih _ (fun e he => h e (List.mem_cons_of_mem _ he))
      | urb e =>
        have ih' := ih (c.handleUrb e).2 (fun e he => h e (List.mem_cons_of_mem _ he))
        simp only [Spec.serve, List.flatMap_cons]
        by_cases hb : BulkIn e
        · rw [List.filter_cons_of_pos (by simpa using hb), List.flatMap_cons, ih']
        · rw [List.filter_cons_of_neg (by simpa using hb), ih']
          have hq : HRes.bytes (c.handleUrb e).1 = [] := by
            unfold Cdc.handleUrb
            split
            · rfl
            · rename_i hn
              cases hd : e.direction with
              | out => rfl
              | «in» =>
                exfalso
                have h1 : e.attributes.toNat ≠ 3 := fun h => hn (u8_ext (by rw [h]; rfl))
                have h2 := (direction_in e).mp hd
                rcases h e (List.mem_cons_self ..) with h | h | h
                · exact hb ⟨h, h2⟩
                · exact h1 h
                · omega
          rw [hq, List.nil_append]
  rw [hfil ops Cdc.new h, serve_conserves]
  rfl

def bulkIn : Endpoint := ⟨0x82, 2, 512, 0⟩
def ep0i : Endpoint := ⟨0x80, 0, 64, 0⟩

/-- Two writes, an OUT transfer, a notification poll and bulk IN polls. -/
example : (Spec.serve Cdc.new [.write [1, 2], .urb bulkIn, .urb ⟨0x02, 2, 512, 0⟩,
      .urb ⟨0x81, 3, 8, 10⟩, .write [3], .write [4], .urb bulkIn, .write [5]])
    = ([(bulkIn, .ok [1, 2]), (⟨0x02, 2, 512, 0⟩, .ok []), (⟨0x81, 3, 8, 10⟩, .ok []),
        (bulkIn, .ok [3, 4])], ⟨[5]⟩) := by decide

/-- C40 for control OUT requests (what is missing: control IN, see `C40_fails`). -/
theorem C40_control_out_partial (c : Cdc) (e : Endpoint) (hc : e.attributes.toNat = 0)
    (hd : e.address.toNat < 128) : c.handleUrb e = (.ok [], c) := by
  have h0 : e.attributes = 0 := u8_ext (by rw [hc]; rfl)
  unfold Cdc.handleUrb
  rw [h0, (direction_out e).mpr hd]
  rfl

/-- C40 fails: every control IN request that reaches the handler returns and discards all
buffered serial data. -/
theorem C40_fails (c : Cdc) (e : Endpoint) (hc : e.attributes.toNat = 0)
    (hd : 128 ≤ e.address.toNat) : c.handleUrb e = (.ok c.txBuffer, ⟨[]⟩) := by
  have h0 : e.attributes = 0 := u8_ext (by rw [hc]; rfl)
  unfold Cdc.handleUrb
  rw [h0, (direction_in e).mpr hd]
  rfl

example : (Spec.serve Cdc.new [.write [1, 2], .urb ep0i, .urb bulkIn]).1
    = [(ep0i, .ok [1, 2]), (bulkIn, .ok [])] := by decide

end Usbip
