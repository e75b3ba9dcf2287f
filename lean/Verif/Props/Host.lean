import Verif.Spec.Handlers
import Verif.Lemmas.Host
import Verif.Props.Descriptors
import Verif.Props.Device
import Verif.Props.Handlers
/-!
# Reply sizes and host devices: C41, C42, C43, C46, C52
-/

namespace Usbip
open Spec Samples

/-! ## C42 -/

theorem and80_zero (a : UInt8) : a &&& 0x80 = 0 ↔ a.toNat < 128 := by
  have := and80 a
  constructor
  · intro h
    by_cases h' : 128 ≤ a.toNat
    · exact absurd h (this.mpr h')
    · omega
  · intro h
    by_cases h' : a &&& 0x80 = 0
    · exact h'
    · have := this.mp h'; omega

theorem take_range (n m : Nat) (f : Nat → UInt8) (h : m ≤ n) :
    ((List.range n).map f).take m = (List.range m).map f := by
  rw [← List.map_take, List.take_range, Nat.min_eq_left h]

theorem sliceResult_ok (n : Nat) (r : ReadRes) (h : ∀ len f, r = some (len, f) → len ≤ n) :
    sliceResult n r = .ok (readBytes r) := by
  cases r with
  | none => rfl
  | some x =>
    obtain ⟨len, f⟩ := x
    have := h len f rfl
    simp only [sliceResult, if_pos this, bufferAfter, take_range n len f this, readBytes]

/-- Numeric transfer types. -/
theorem attr_cases (a : UInt8) : (a.toNat = 0 ∧ a = 0) ∨ (a.toNat = 1 ∧ a = 1) ∨ (a.toNat = 2 ∧ a = 2) ∨
    (a.toNat = 3 ∧ a = 3) ∨ 3 < a.toNat := by
  by_cases h0 : a.toNat = 0
  · exact Or.inl ⟨h0, u8_ext h0⟩
  by_cases h1 : a.toNat = 1
  · exact Or.inr (Or.inl ⟨h1, u8_ext h1⟩)
  by_cases h2 : a.toNat = 2
  · exact Or.inr (Or.inr (Or.inl ⟨h2, u8_ext h2⟩))
  by_cases h3 : a.toNat = 3
  · exact Or.inr (Or.inr (Or.inr (Or.inl ⟨h3, u8_ext h3⟩)))
  · omega

/-- What slicing the buffer gives, whatever the library claims. -/
theorem sliceResult_read {σ} (lib : RusbLib σ) (s : σ) (c : LibCall) (n : Nat)
    (hn : c.Overlong lib s ↔ ∃ l f, c.answer lib s = some (l, f) ∧ n < l) :
    sliceResult n (c.answer lib s) = if c.Overlong lib s then .panic else .ok (readBytes (c.answer lib s)) := by
  cases hr : c.answer lib s with
  | none =>
    rw [if_neg (fun h => by obtain ⟨l, f, h, _⟩ := hn.mp h; rw [hr] at h; simp at h)]
    rfl
  | some x =>
    obtain ⟨len, f⟩ := x
    by_cases h : len ≤ n
    · rw [if_neg (fun h' => by
        obtain ⟨l, g, e, h'⟩ := hn.mp h'
        rw [hr] at e
        simp only [Option.some.injEq, Prod.mk.injEq] at e
        omega)]
      simp only [sliceResult, if_pos h, bufferAfter, take_range n len f h, readBytes]
    · rw [if_pos (hn.mpr ⟨len, f, hr, by omega⟩)]
      simp only [sliceResult, if_neg h]

/-- An interface handler with any library: the library call of the transfer type and direction (none for
isochronous and unknown types), a panic exactly if it claims too much, and what was read otherwise. -/
theorem rusbIface_any {σ} (lib : RusbLib σ) (e : Endpoint) (len : UInt32)
    (setup : SetupPacket) (data : Bytes) (s : σ) (log : List LibCall) :
    rusbIface (watchLib lib) e len setup data (s, log) =
      match ifaceCall e len setup data with
      | some c => (if c.Overlong lib s then .panic else .ok (readBytes (c.answer lib s)), (c.after lib s, log ++ [c]))
      | none => (.ok [], (s, log)) := by
  rcases attr_cases e.attributes with ⟨hn, ha⟩ | ⟨hn, ha⟩ | ⟨hn, ha⟩ | ⟨hn, ha⟩ | hn
  · by_cases hi : 128 ≤ e.address.toNat
    · have hc : ifaceCall e len setup data = some (.readControl setup.requestType setup.request setup.value setup.index len.toNat) := by
        simp only [ifaceCall, hn, hi, if_true]
      have := sliceResult_read lib s (.readControl setup.requestType setup.request setup.value setup.index len.toNat) len.toNat (by
        simp only [LibCall.Overlong]
        split <;> simp_all)
      rw [hc]
      dsimp only
      rw [← this]
      simp only [rusbIface, ha, (direction_in e).mpr hi, EndpointAttributes.toU8, if_true, watchLib, LibCall.answer,
        LibCall.after]
    · simp only [rusbIface, ha, (direction_out e).mpr (by omega), ifaceCall, hn, hi, if_false]
      rfl
  · simp only [ifaceCall, hn, rusbIface, ha]
    rfl
  · by_cases hi : 128 ≤ e.address.toNat
    · have hc : ifaceCall e len setup data = some (.readBulk e.address len.toNat) := by
        simp only [ifaceCall, hn, hi, if_true]
      have := sliceResult_read lib s (.readBulk e.address len.toNat) len.toNat (by
        simp only [LibCall.Overlong]
        split <;> simp_all)
      rw [hc]
      dsimp only
      rw [← this]
      simp only [rusbIface, ha, (direction_in e).mpr hi, EndpointAttributes.toU8, if_true, watchLib, LibCall.answer,
        LibCall.after]
      rfl
    · simp only [rusbIface, ha, (direction_out e).mpr (by omega), ifaceCall, hn, hi, if_false]
      rfl
  · by_cases hi : 128 ≤ e.address.toNat
    · have hc : ifaceCall e len setup data = some (.readInterrupt e.address len.toNat) := by
        simp only [ifaceCall, hn, hi, if_true]
      have := sliceResult_read lib s (.readInterrupt e.address len.toNat) len.toNat (by
        simp only [LibCall.Overlong]
        split <;> simp_all)
      rw [hc]
      dsimp only
      rw [← this]
      simp only [rusbIface, ha, (direction_in e).mpr hi, EndpointAttributes.toU8, if_true, watchLib, LibCall.answer,
        LibCall.after]
      rfl
    · simp only [rusbIface, ha, (direction_out e).mpr (by omega), ifaceCall, hn, hi, if_false]
      rfl
  · have h0 : ∀ k : UInt8, k.toNat ≤ 3 → e.attributes ≠ k := by
      intro k hk h; rw [h] at hn; omega
    have hc : ifaceCall e len setup data = none := by
      obtain ⟨k, hk⟩ : ∃ k, e.attributes.toNat = k + 4 := ⟨e.attributes.toNat - 4, by omega⟩
      simp only [ifaceCall, hk]
    rw [hc]
    simp only [rusbIface]
    rw [if_neg (h0 _ (by decide)), if_neg (h0 _ (by decide)), if_neg (h0 _ (by decide))]

/-- A device handler with any library. -/
theorem rusbDev_any {σ} (lib : RusbLib σ) (len : UInt32)
    (setup : SetupPacket) (data : Bytes) (s : σ) (log : List LibCall) :
    rusbDev (watchLib lib) len setup data (s, log) =
      (if (devCall len setup data).Overlong lib s then .panic else .ok (readBytes ((devCall len setup data).answer lib s)),
       ((devCall len setup data).after lib s, log ++ [devCall len setup data])) := by
  unfold rusbDev devCall
  by_cases h : 128 ≤ setup.requestType.toNat
  · rw [if_neg (by rw [and80_zero]; omega), if_pos h]
    have := sliceResult_read lib s (.readControl setup.requestType setup.request setup.value setup.index len.toNat)
      len.toNat (by
        simp only [LibCall.Overlong]
        split <;> simp_all)
    rw [← this]
    simp only [watchLib, LibCall.answer, LibCall.after]
  · rw [if_pos (by rw [and80_zero]; omega), if_neg h]
    rfl

/-- An honest library never claims too much. -/
theorem honest_iff {σ} (lib : RusbLib σ) : Honest lib ↔ ∀ (c : LibCall) (s : σ), ¬ c.Overlong lib s := by
  constructor
  · intro hl c s h
    have := hl c s
    unfold LibCall.Overlong at h
    split at h
    · rename_i hr; have := this _ _ hr; dsimp only at this; omega
    · rename_i hr; have := this _ _ hr; dsimp only at this; omega
    · rename_i hr; have := this _ _ hr; dsimp only at this; omega
    · exact h
  · intro hl c s len f hr
    have := hl c s
    unfold LibCall.Overlong at this
    rw [hr] at this
    cases c <;> simp at this ⊢ <;> exact this

/-- C42 for interfaces: with a library that never claims to have read more than the buffer holds,
a URB causes exactly the library call of its transfer type and direction (none for isochronous and
unknown types), the reply is exactly what was read (nothing after an error or a write), and it is
always a success. -/
theorem C42_interface {σ} (lib : RusbLib σ) (hl : Honest lib) (e : Endpoint) (len : UInt32)
    (setup : SetupPacket) (data : Bytes) (s : σ) (log : List LibCall) :
    rusbIface (watchLib lib) e len setup data (s, log) =
      match ifaceCall e len setup data with
      | some c => (.ok (readBytes (c.answer lib s)), (c.after lib s, log ++ [c]))
      | none => (.ok [], (s, log)) := by
  rw [rusbIface_any]
  cases ifaceCall e len setup data with
  | none => rfl
  | some c => dsimp only; rw [if_neg ((honest_iff lib).mp hl c s)]

/-- C42 for the device: the same for control requests, whose direction is bit 7 of the request
type. -/
theorem C42_device {σ} (lib : RusbLib σ) (hl : Honest lib) (len : UInt32)
    (setup : SetupPacket) (data : Bytes) (s : σ) (log : List LibCall) :
    rusbDev (watchLib lib) len setup data (s, log) =
      (.ok (readBytes ((devCall len setup data).answer lib s)),
       ((devCall len setup data).after lib s, log ++ [devCall len setup data])) := by
  rw [rusbDev_any, if_neg ((honest_iff lib).mp hl _ s)]

/-- What is read fits the length the request asked for. -/
theorem readBytes_length {σ} (lib : RusbLib σ) (hl : Honest lib) (s : σ) (e : Endpoint) (len : UInt32)
    (setup : SetupPacket) (data : Bytes) (c : LibCall) (hc : ifaceCall e len setup data = some c) :
    (readBytes (c.answer lib s)).length ≤ len.toNat := by
  have hlen : ∀ r : ReadRes, (∀ l f, r = some (l, f) → l ≤ len.toNat) → (readBytes r).length ≤ len.toNat := by
    intro r hr
    cases r with
    | none => simp [readBytes]
    | some x => simpa [readBytes] using hr x.1 x.2 rfl
  apply hlen
  intro l f h
  have hh := hl c s l f h
  unfold ifaceCall at hc
  dsimp only at hc
  split at hc
  · by_cases hi : 128 ≤ e.address.toNat
    · simp only [if_pos hi, Option.some.injEq] at hc; subst hc; exact hh
    · simp only [if_neg hi, Option.some.injEq] at hc; subst hc; simp [LibCall.answer] at h
  · by_cases hi : 128 ≤ e.address.toNat
    · simp only [if_pos hi, Option.some.injEq] at hc; subst hc; exact hh
    · simp only [if_neg hi, Option.some.injEq] at hc; subst hc; simp [LibCall.answer] at h
  · by_cases hi : 128 ≤ e.address.toNat
    · simp only [if_pos hi, Option.some.injEq] at hc; subst hc; exact hh
    · simp only [if_neg hi, Option.some.injEq] at hc; subst hc; simp [LibCall.answer] at h
  · simp at hc

/-- C42: the reply of an interface never exceeds the request's buffer length. -/
theorem C42_bounded {σ} (lib : RusbLib σ) (hl : Honest lib) (e : Endpoint) (len : UInt32)
    (setup : SetupPacket) (data : Bytes) (s : σ) (b : Bytes)
    (h : (rusbIface (watchLib lib) e len setup data (s, [])).1 = .ok b) : b.length ≤ len.toNat := by
  rw [C42_interface lib hl] at h
  cases hc : ifaceCall e len setup data with
  | none => rw [hc] at h; simp only [HRes.ok.injEq] at h; subst h; simp
  | some c =>
    rw [hc] at h
    simp only [HRes.ok.injEq] at h
    subst h
    exact readBytes_length lib hl s e len setup data c hc

/-- C42: nor does the reply of the device. -/
theorem C42_device_bounded {σ} (lib : RusbLib σ) (hl : Honest lib) (len : UInt32)
    (setup : SetupPacket) (data : Bytes) (s : σ) (b : Bytes)
    (h : (rusbDev (watchLib lib) len setup data (s, [])).1 = .ok b) : b.length ≤ len.toNat := by
  rw [C42_device lib hl] at h
  simp only [HRes.ok.injEq] at h
  subst h
  have hh := hl (devCall len setup data) s
  unfold devCall at hh ⊢
  by_cases hi : 128 ≤ setup.requestType.toNat
  · simp only [if_pos hi] at hh ⊢
    cases hr : LibCall.answer lib s (.readControl setup.requestType setup.request setup.value setup.index len.toNat) with
    | none => simp [readBytes]
    | some x => simpa [readBytes] using hh x.1 x.2 hr
  · simp only [if_neg hi]
    simp [readBytes, LibCall.answer]

/-- A library that fills half the buffer, fails on endpoint 0x82 and counts its calls. -/
def sampleLib : RusbLib Nat where
  readControl _ _ _ _ n s := (some (n / 2, fun i => UInt8.ofNat i), s + 1)
  writeControl _ _ _ _ _ s := s + 1
  readInterrupt a n s := (if a = 0x82 then none else some (n / 2, fun _ => 7), s + 1)
  writeInterrupt _ _ s := s + 1
  readBulk a n s := (if a = 0x82 then none else some (n / 2, fun _ => 9), s + 1)
  writeBulk _ _ s := s + 1

example : Honest sampleLib := by
  intro c s len f h
  cases c <;> simp only [LibCall.answer, sampleLib] at h ⊢
  · simp only [Option.some.injEq, Prod.mk.injEq] at h; omega
  · split at h
    · simp at h
    · simp only [Option.some.injEq, Prod.mk.injEq] at h; omega
  · split at h
    · simp at h
    · simp only [Option.some.injEq, Prod.mk.injEq] at h; omega

example : rusbIface (watchLib sampleLib) ⟨0x81, 2, 64, 0⟩ 4 ⟨0, 0, 0, 0, 0⟩ [] (0, [])
      = (.ok [9, 9], (1, [.readBulk 0x81 4])) ∧
    rusbIface (watchLib sampleLib) ⟨0x82, 3, 64, 0⟩ 4 ⟨0, 0, 0, 0, 0⟩ [] (0, [])
      = (.ok [], (1, [.readInterrupt 0x82 4])) := by decide

/-! ## C43 -/

/-- When building nusb's control request panics. -/
theorem nusbControl_none (setup : SetupPacket) : nusbControl setup = none ↔
    setup.requestType.toNat / 32 % 4 = 3 ∨ 3 < setup.requestType.toNat % 32 := by
  have h : ∀ n < 256, (nusbControl { setup with requestType := UInt8.ofNat n } = none ↔
      n / 32 % 4 = 3 ∨ 3 < n % 32) := by
    have hh : ∀ n < 256, ((nusbType (UInt8.ofNat n) = none ∨ nusbRecipient (UInt8.ofNat n) = none) ↔
      n / 32 % 4 = 3 ∨ 3 < n % 32) := by
      set_option maxRecDepth 100000 in decide
    intro n hn
    rw [← hh n hn]
    unfold nusbControl
    cases nusbType (UInt8.ofNat n) <;> cases nusbRecipient (UInt8.ofNat n) <;> simp
  have := h setup.requestType.toNat (u8_lt _)
  rwa [ofNat_toNat8] at this

/-- The control request nusb is given is the client's. -/
theorem nusbControl_some (setup : SetupPacket) (t : NusbType) (r : NusbRecipient)
    (ht : setup.requestType.toNat / 32 % 4 = typeBits t)
    (hr : setup.requestType.toNat % 32 = recipientBits r) :
    nusbControl setup = some ⟨t, r, setup.request, setup.value, setup.index⟩ := by
  have h1 : ∀ n < 256, n / 32 % 4 = typeBits t → nusbType (UInt8.ofNat n) = some t := by
    cases t <;> (set_option maxRecDepth 100000 in decide)
  have h2 : ∀ n < 256, n % 32 = recipientBits r → nusbRecipient (UInt8.ofNat n) = some r := by
    cases r <;> (set_option maxRecDepth 100000 in decide)
  have e1 := h1 _ (u8_lt _) ht
  have e2 := h2 _ (u8_lt _) hr
  rw [ofNat_toNat8] at e1 e2
  unfold nusbControl
  rw [e1, e2]
  rfl

/-- C43: the nusb interface handler panics exactly on reserved request type bits and on bulk and
interrupt endpoints (whatever the library does, provided it is honest about lengths). -/
theorem C43_panics {σ} (lib : NusbLib σ) (e : Endpoint) (len : UInt32) (setup : SetupPacket)
    (data : Bytes) (s : σ)
    (hl : ∀ c n s l f, (lib.controlIn c n s).1 = some (l, f) → l ≤ n) :
    (nusbIface lib e len setup data s).1 = .panic ↔
      setup.requestType.toNat / 32 % 4 = 3 ∨ 3 < setup.requestType.toNat % 32 ∨
      e.attributes.toNat = 2 ∨ e.attributes.toNat = 3 := by
  have hctl := nusbControl_none setup
  rw [← or_assoc, ← hctl]
  unfold nusbIface
  cases hc : nusbControl setup with
  | none => simp
  | some c =>
    simp only [reduceCtorEq, false_or]
    rcases attr_cases e.attributes with ⟨hn, ha⟩ | ⟨hn, ha⟩ | ⟨hn, ha⟩ | ⟨hn, ha⟩ | hn
    · rw [hn, ha]
      simp only [EndpointAttributes.toU8, if_true]
      cases e.direction with
      | out => simp
      | «in» =>
        simp only
        rw [sliceResult_ok _ _ (fun l f h => hl _ _ _ l f h)]
        simp
    · rw [hn, ha]; simp [EndpointAttributes.toU8]
    · rw [hn, ha]; simp [EndpointAttributes.toU8]
    · rw [hn, ha]; simp [EndpointAttributes.toU8]
    · have h0 : ∀ k : UInt8, k.toNat ≤ 3 → e.attributes ≠ k := by
        intro k hk h; rw [h] at hn; omega
      rw [if_neg (h0 _ (by decide)), if_neg (h0 _ (by decide)), if_neg (h0 _ (by decide))]
      simp only [reduceCtorEq, false_iff]
      omega

/-- C43: a control IN request with defined type and recipient is forwarded with the request's
parameters and returns exactly what was read, or nothing after an error; control OUT is forwarded
with its data; isochronous transfers succeed with no data. -/
theorem C43_forwards {σ} (lib : NusbLib σ) (e : Endpoint) (len : UInt32) (setup : SetupPacket)
    (data : Bytes) (s : σ) (t : NusbType) (r : NusbRecipient)
    (hl : ∀ c n s l f, (lib.controlIn c n s).1 = some (l, f) → l ≤ n)
    (ht : setup.requestType.toNat / 32 % 4 = typeBits t)
    (hr : setup.requestType.toNat % 32 = recipientBits r) :
    let c : NusbControl := ⟨t, r, setup.request, setup.value, setup.index⟩
    (e.attributes.toNat = 0 → 128 ≤ e.address.toNat →
      nusbIface lib e len setup data s
        = (.ok (readBytes (lib.controlIn c len.toNat s).1), (lib.controlIn c len.toNat s).2)) ∧
    (e.attributes.toNat = 0 → e.address.toNat < 128 →
      nusbIface lib e len setup data s = (.ok [], lib.controlOut c data s)) ∧
    (e.attributes.toNat = 1 → nusbIface lib e len setup data s = (.ok [], s)) := by
  intro c
  have hc : nusbControl setup = some c := nusbControl_some setup t r ht hr
  refine ⟨?_, ?_, ?_⟩
  · intro h0 hi
    have ha : e.attributes = 0 := u8_ext (by rw [h0]; rfl)
    simp only [nusbIface, hc, ha, EndpointAttributes.toU8, if_true, (direction_in e).mpr hi]
    rw [sliceResult_ok _ _ (fun l f h => hl _ _ _ l f h)]
  · intro h0 hi
    have ha : e.attributes = 0 := u8_ext (by rw [h0]; rfl)
    simp only [nusbIface, hc, ha, EndpointAttributes.toU8, if_true, (direction_out e).mpr hi]
  · intro h1
    have ha : e.attributes = 1 := u8_ext (by rw [h1]; rfl)
    simp only [nusbIface, hc, ha, EndpointAttributes.toU8]
    rfl

/-- C43: the nusb device handler panics exactly on reserved request type bits. -/
theorem C43_device_panics {σ} (lib : NusbLib σ) (len : UInt32) (setup : SetupPacket)
    (data : Bytes) (s : σ)
    (hl : ∀ c n s l f, (lib.controlIn c n s).1 = some (l, f) → l ≤ n) :
    (nusbDev lib len setup data s).1 = .panic ↔
      setup.requestType.toNat / 32 % 4 = 3 ∨ 3 < setup.requestType.toNat % 32 := by
  rw [← nusbControl_none]
  unfold nusbDev
  cases hc : nusbControl setup with
  | none => simp
  | some c =>
    simp only [reduceCtorEq, iff_false]
    split
    · simp
    · rw [sliceResult_ok _ _ (fun l f h => hl _ _ _ l f h)]
      simp

/-- C43: any other control request to the device is forwarded with its own parameters, in the
direction of bit 7 of the request type, and what was read is returned (nothing after an error). -/
theorem C43_device_forwards {σ} (lib : NusbLib σ) (len : UInt32) (setup : SetupPacket)
    (data : Bytes) (s : σ) (t : NusbType) (r : NusbRecipient)
    (hl : ∀ c n s l f, (lib.controlIn c n s).1 = some (l, f) → l ≤ n)
    (ht : setup.requestType.toNat / 32 % 4 = typeBits t)
    (hr : setup.requestType.toNat % 32 = recipientBits r) :
    let c : NusbControl := ⟨t, r, setup.request, setup.value, setup.index⟩
    nusbDev lib len setup data s =
      if 128 ≤ setup.requestType.toNat then
        (.ok (readBytes (lib.controlIn c len.toNat s).1), (lib.controlIn c len.toNat s).2)
      else (.ok [], lib.controlOut c data s) := by
  intro c
  have hc : nusbControl setup = some c := nusbControl_some setup t r ht hr
  unfold nusbDev
  rw [hc]
  by_cases h : 128 ≤ setup.requestType.toNat
  · rw [if_pos h]
    dsimp only
    rw [if_neg (by rw [and80_zero]; omega), sliceResult_ok _ _ (fun l f h => hl _ _ _ l f h)]
  · rw [if_neg h]
    dsimp only
    rw [if_pos (by rw [and80_zero]; omega)]

example : (0xA1 : UInt8).toNat / 32 % 4 = typeBits .cls ∧ (0xA1 : UInt8).toNat % 32 = recipientBits .interface ∧
    (0x61 : UInt8).toNat / 32 % 4 = 3 ∧ 3 < (0xA4 : UInt8).toNat % 32 := by decide

/-! ## C46 -/

/-- Value of a decimal numeral. -/
def readDecimal (bs : Bytes) : Nat := bs.foldl (fun v b => 10 * v + (b.toNat - 48)) 0

def decimalGood (n : Nat) : Bool :=
  readDecimal (decimal n) == n && (decimal n).length ≤ 3 && (decimal n).all (fun b => 48 ≤ b && b ≤ 57)

set_option maxRecDepth 100000 in
theorem decimalGood_all : ∀ n < 256, decimalGood n = true := by decide

theorem decimal_good (n : Nat) (h : n < 256) : readDecimal (decimal n) = n ∧ (decimal n).length ≤ 3 ∧
    ∀ b ∈ decimal n, b ≠ 0 ∧ b ≠ 45 := by
  have := decimalGood_all n h
  simp only [decimalGood, Bool.and_eq_true, beq_iff_eq, decide_eq_true_eq, List.all_eq_true] at this
  obtain ⟨⟨h1, h2⟩, h3⟩ := this
  refine ⟨h1, h2, fun b hb => ?_⟩
  obtain ⟨ha, _⟩ := h3 b hb
  constructor <;> rintro rfl <;> revert ha <;> decide

theorem split_dash {a b r s : Bytes} (ha : ∀ x ∈ a, x ≠ 45) (hb : ∀ x ∈ b, x ≠ 45)
    (h : a ++ 45 :: r = b ++ 45 :: s) : a = b ∧ r = s := by
  induction a generalizing b with
  | nil =>
    cases b with
    | nil => simpa using h
    | cons y b =>
      simp only [List.nil_append, List.cons_append, List.cons.injEq] at h
      exact absurd h.1.symm (hb y (by simp))
  | cons x a ih =>
    cases b with
    | nil =>
      simp only [List.nil_append, List.cons_append, List.cons.injEq] at h
      exact absurd h.1 (ha x (by simp))
    | cons y b =>
      simp only [List.cons_append, List.cons.injEq] at h
      obtain ⟨h1, h2⟩ := ih (fun z hz => ha z (by simp [hz])) (fun z hz => hb z (by simp [hz])) h.2
      exact ⟨by rw [h.1, h1], h2⟩

theorem decimal_inj (a b : Nat) (ha : a < 256) (hb : b < 256) (h : decimal a = decimal b) : a = b := by
  rw [← (decimal_good a ha).1, ← (decimal_good b hb).1, h]

theorem formatBusId_inj (a b c a' b' c' : Nat) (ha : a < 256) (hb : b < 256) (ha' : a' < 256)
    (hb' : b' < 256) (h : formatBusId a b c = formatBusId a' b' c') : a = a' ∧ b = b' := by
  simp only [formatBusId, List.append_assoc, List.cons_append, List.nil_append] at h
  obtain ⟨h1, h2⟩ := split_dash (fun x hx => ((decimal_good a ha).2.2 x hx).2)
    (fun x hx => ((decimal_good a' ha').2.2 x hx).2) h
  obtain ⟨h3, _⟩ := split_dash (fun x hx => ((decimal_good b hb).2.2 x hx).2)
    (fun x hx => ((decimal_good b' hb').2.2 x hx).2) h2
  exact ⟨decimal_inj a a' ha ha' h1, decimal_inj b b' hb hb' h3⟩

theorem formatBusId_fits (a b c : Nat) (ha : a < 256) (hb : b < 256) (hc : c < 256) :
    (formatBusId a b c).length ≤ 11 ∧ ∀ x ∈ formatBusId a b c, x ≠ 0 := by
  have h1 := decimal_good a ha
  have h2 := decimal_good b hb
  have h3 := decimal_good c hc
  constructor
  · simp only [formatBusId, List.length_append, List.length_cons, List.length_nil]
    omega
  · intro x hx
    simp only [formatBusId, List.mem_append, List.mem_singleton] at hx
    rcases hx with (((h | h) | h) | h) | h
    · exact (h1.2.2 x h).1
    · rw [h]; decide
    · exact (h2.2.2 x h).1
    · rw [h]; decide
    · exact (h3.2.2 x h).1

theorem rusb_busId {p : Profile} {h : HostDev} {d : Device} (hd : rusbDevice p h = .ok (some d)) :
    d.busId = formatBusId h.bus.toNat h.address.toNat h.port.toNat := by
  obtain ⟨desc, cfg, interfaces, i1, d1, i2, d2, i3, d3, _, _, _, h1, h2, h3, rfl⟩ :=
    rusbDevice_inv hd
  obtain ⟨_, rfl⟩ := rusbString_keeps h1
  obtain ⟨_, rfl⟩ := rusbString_keeps h2
  obtain ⟨_, rfl⟩ := rusbString_keeps h3
  rfl

theorem nusb_busId {p : Profile} {n : NusbDev} {d : Device} (hd : nusbDevice p n = .ok (some d)) :
    d.busId = formatBusId n.bus.toNat n.address.toNat 0 := by
  obtain ⟨cfg, interfaces, speed, i1, d1, i2, d2, i3, d3, _, _, _, h1, h2, h3, rfl⟩ :=
    nusbDevice_inv hd
  obtain ⟨_, rfl⟩ := nusbString_keeps h1
  obtain ⟨_, rfl⟩ := nusbString_keeps h2
  obtain ⟨_, rfl⟩ := nusbString_keeps h3
  rfl

/-- C46 for libusb devices: different bus number or address, different bus id; and the bus id fits
the 32-byte import field and has no NUL. -/
theorem C46_rusb (p : Profile) (h h' : HostDev) (d d' : Device)
    (hd : rusbDevice p h = .ok (some d)) (hd' : rusbDevice p h' = .ok (some d')) :
    (h.bus ≠ h'.bus ∨ h.address ≠ h'.address → d.busId ≠ d'.busId) ∧
    d.busId.length < 32 ∧ ∀ x ∈ d.busId, x ≠ 0 := by
  rw [rusb_busId hd, rusb_busId hd']
  obtain ⟨f1, f2⟩ := formatBusId_fits h.bus.toNat h.address.toNat h.port.toNat (u8_lt _) (u8_lt _) (u8_lt _)
  refine ⟨fun hne e => ?_, by omega, f2⟩
  obtain ⟨e1, e2⟩ := formatBusId_inj _ _ _ _ _ _ (u8_lt _) (u8_lt _) (u8_lt _) (u8_lt _) e
  rcases hne with hne | hne
  · exact hne (u8_ext e1)
  · exact hne (u8_ext e2)

/-- C46 for nusb devices. -/
theorem C46_nusb (p : Profile) (h h' : NusbDev) (d d' : Device)
    (hd : nusbDevice p h = .ok (some d)) (hd' : nusbDevice p h' = .ok (some d')) :
    (h.bus ≠ h'.bus ∨ h.address ≠ h'.address → d.busId ≠ d'.busId) ∧
    d.busId.length < 32 ∧ ∀ x ∈ d.busId, x ≠ 0 := by
  rw [nusb_busId hd, nusb_busId hd']
  obtain ⟨f1, f2⟩ := formatBusId_fits h.bus.toNat h.address.toNat 0 (u8_lt _) (u8_lt _) (by decide)
  refine ⟨fun hne e => ?_, by omega, f2⟩
  obtain ⟨e1, e2⟩ := formatBusId_inj _ _ _ _ _ _ (u8_lt _) (u8_lt _) (u8_lt _) (u8_lt _) e
  rcases hne with hne | hne
  · exact hne (u8_ext e1)
  · exact hne (u8_ext e2)

/-! ## C52 -/

/-- A host device with a manufacturer and a serial string, and an interface named by string 4. -/
def hostA : HostDev where
  bus := 1
  address := 23
  port := 4
  speed := .high
  desc := some { vendorId := 1, productId := 2, cls := 0, sub := 0, proto := 0
                 bcdDevice := 0x0100, bcdUsb := 0x0200, numConfigurations := 1
                 maxPacketSize := 64, manufacturerIndex := some 3, productIndex := none
                 serialIndex := some 9 }
  cfg := some { value := 1, attributes := 0x80, maxPower := 50, stringIndex := none, extra := []
                interfaces := [[{ number := 0, setting := 0, cls := 255, sub := 0, proto := 0, endpoints := []
                                  stringIndex := some 1, extra := [] }]] }
  stringAscii i := if i = 3 then some ['A', 'c'] else if i = 9 then some ['7'] else
    if i = 1 then some ['i', 'f'] else none
  ifHandler := id
  devHandler := 0

example : ∃ d, rusbDevice release hostA = .ok (some d) ∧ d.busId = ascii "1-23-4" := ⟨_, rfl, by decide⟩

/-- The string a client reads under an index: none for index 0. -/
def presented (d : Device) (index : UInt8) : Option Str :=
  if index = 0 then none else d.stringPool index

theorem scan_result {p : Profile} {pool : UInt8 → Option Str} {i : UInt8} {k : UInt8}
    (hk1 : 1 ≤ k.toNat) (hk2 : k.toNat ≤ 254) (hf : pool k = none)
    (h : newStringScan p pool 256 1 = .ok i) : i ≠ 0 ∧ pool i = none := by
  obtain ⟨m, h1, h2, h3⟩ := scan_free p pool k hk1 hk2 hf
  rw [h] at h1
  simp only [Outcome.ok.injEq] at h1
  subst h1
  exact ⟨h2, h3⟩

/-- Adding strings one after the other to a pool of at most two entries. -/
theorem pool_three {p : Profile} {i1 i2 i3 : UInt8} {s1 s2 s3 : Option Str}
    {P0 P1 P2 P3 : UInt8 → Option Str} (hP0 : ∀ j, P0 j = none)
    (h1 : (s1 = none ∧ i1 = 0 ∧ P1 = P0) ∨
      ∃ s, s1 = some s ∧ newStringScan p P0 256 1 = .ok i1 ∧ P1 = poolInsert P0 i1 s)
    (h2 : (s2 = none ∧ i2 = 0 ∧ P2 = P1) ∨
      ∃ s, s2 = some s ∧ newStringScan p P1 256 1 = .ok i2 ∧ P2 = poolInsert P1 i2 s)
    (h3 : (s3 = none ∧ i3 = 0 ∧ P3 = P2) ∨
      ∃ s, s3 = some s ∧ newStringScan p P2 256 1 = .ok i3 ∧ P3 = poolInsert P2 i3 s) :
    (if i1 = 0 then none else P3 i1) = s1 ∧ (if i2 = 0 then none else P3 i2) = s2 ∧
    (if i3 = 0 then none else P3 i3) = s3 := by
  have ins : ∀ (P : UInt8 → Option Str) (i : UInt8) (s : Str) (j : UInt8),
      poolInsert P i s j = if j = i then some s else P j := fun _ _ _ _ => rfl
  -- among three indices one is unused by at most two insertions
  have free : ∀ (a b : UInt8), ∃ k : UInt8, 1 ≤ k.toNat ∧ k.toNat ≤ 254 ∧ k ≠ a ∧ k ≠ b := by
    intro a b
    by_cases h1 : (1 : UInt8) ≠ a ∧ (1 : UInt8) ≠ b
    · exact ⟨1, by decide, by decide, h1.1, h1.2⟩
    by_cases h2 : (2 : UInt8) ≠ a ∧ (2 : UInt8) ≠ b
    · exact ⟨2, by decide, by decide, h2.1, h2.2⟩
    · refine ⟨3, by decide, by decide, ?_, ?_⟩
      · rintro rfl
        have e1 : (1 : UInt8) = b := by
          by_cases h : (1 : UInt8) = b
          · exact h
          · exact absurd ⟨by decide, h⟩ h1
        have e2 : (2 : UInt8) = b := by
          by_cases h : (2 : UInt8) = b
          · exact h
          · exact absurd ⟨by decide, h⟩ h2
        rw [← e2] at e1
        exact absurd e1 (by decide)
      · rintro rfl
        have e1 : (1 : UInt8) = a := by
          by_cases h : (1 : UInt8) = a
          · exact h
          · exact absurd ⟨h, by decide⟩ h1
        have e2 : (2 : UInt8) = a := by
          by_cases h : (2 : UInt8) = a
          · exact h
          · exact absurd ⟨h, by decide⟩ h2
        rw [← e2] at e1
        exact absurd e1 (by decide)
  have step1 : i1 = 0 ∧ s1 = none ∧ P1 = P0 ∨ i1 ≠ 0 ∧ ∃ s, s1 = some s ∧ P1 = poolInsert P0 i1 s := by
    rcases h1 with ⟨a, b, c⟩ | ⟨s, a, b, c⟩
    · exact Or.inl ⟨b, a, c⟩
    · exact Or.inr ⟨(scan_result (k := 1) (by decide) (by decide) (hP0 _) b).1, s, a, c⟩
  have dom1 : ∀ j, j ≠ i1 → P1 j = none := by
    intro j hj
    rcases step1 with ⟨_, _, c⟩ | ⟨_, s, _, c⟩
    · rw [c]; exact hP0 j
    · rw [c, ins, if_neg hj]; exact hP0 j
  have step2 : i2 = 0 ∧ s2 = none ∧ P2 = P1 ∨
      i2 ≠ 0 ∧ P1 i2 = none ∧ ∃ s, s2 = some s ∧ P2 = poolInsert P1 i2 s := by
    rcases h2 with ⟨a, b, c⟩ | ⟨s, a, b, c⟩
    · exact Or.inl ⟨b, a, c⟩
    · obtain ⟨k, k1, k2, k3, _⟩ := free i1 i1
      obtain ⟨x, y⟩ := scan_result k1 k2 (dom1 k k3) b
      exact Or.inr ⟨x, y, s, a, c⟩
  have dom2 : ∀ j, j ≠ i1 → j ≠ i2 → P2 j = none := by
    intro j hj hj'
    rcases step2 with ⟨_, _, c⟩ | ⟨_, _, s, _, c⟩
    · rw [c]; exact dom1 j hj
    · rw [c, ins, if_neg hj']; exact dom1 j hj
  have step3 : i3 = 0 ∧ s3 = none ∧ P3 = P2 ∨
      i3 ≠ 0 ∧ P2 i3 = none ∧ ∃ s, s3 = some s ∧ P3 = poolInsert P2 i3 s := by
    rcases h3 with ⟨a, b, c⟩ | ⟨s, a, b, c⟩
    · exact Or.inl ⟨b, a, c⟩
    · obtain ⟨k, k1, k2, k3, k4⟩ := free i1 i2
      obtain ⟨x, y⟩ := scan_result k1 k2 (dom2 k k3 k4) b
      exact Or.inr ⟨x, y, s, a, c⟩
  -- an entry once present stays
  have keep3 : ∀ j s, P2 j = some s → P3 j = some s := by
    intro j s hj
    rcases step3 with ⟨_, _, c⟩ | ⟨_, y, s', _, c⟩
    · rw [c]; exact hj
    · rw [c, ins]
      split
      · rename_i e; rw [e, y] at hj; simp at hj
      · exact hj
  have keep2 : ∀ j s, P1 j = some s → P2 j = some s := by
    intro j s hj
    rcases step2 with ⟨_, _, c⟩ | ⟨_, y, s', _, c⟩
    · rw [c]; exact hj
    · rw [c, ins]
      split
      · rename_i e; rw [e, y] at hj; simp at hj
      · exact hj
  refine ⟨?_, ?_, ?_⟩
  · rcases step1 with ⟨a, b, _⟩ | ⟨a, s, b, c⟩
    · rw [if_pos a, b]
    · rw [if_neg a, b]
      exact keep3 _ _ (keep2 _ _ (by rw [c, ins, if_pos rfl]))
  · rcases step2 with ⟨a, b, _⟩ | ⟨a, _, s, b, c⟩
    · rw [if_pos a, b]
    · rw [if_neg a, b]
      exact keep3 _ _ (by rw [c, ins, if_pos rfl])
  · rcases step3 with ⟨a, b, _⟩ | ⟨a, _, s, b, c⟩
    · rw [if_pos a, b]
    · rw [if_neg a, b, c, ins, if_pos rfl]

/-- C52 for the device's own strings, libusb (what is missing: interface strings, see
`C52_fails`): a device that could be set up presents, as manufacturer, product and serial number,
exactly what the host device answers for the indices in its descriptor (and none where the
descriptor has none). -/
theorem C52_rusb_partial (p : Profile) (h : HostDev) (d : Device) (desc : HostDevDesc)
    (hdesc : h.desc = some desc) (hd : rusbDevice p h = .ok (some d)) :
    presented d d.stringManufacturer = desc.manufacturerIndex.bind h.stringAscii ∧
    presented d d.stringProduct = desc.productIndex.bind h.stringAscii ∧
    presented d d.stringSerial = desc.serialIndex.bind h.stringAscii := by
  obtain ⟨desc', cfg, interfaces, i1, d1, i2, d2, i3, d3, hdesc', _, _, h1, h2, h3, rfl⟩ :=
    rusbDevice_inv hd
  rw [hdesc] at hdesc'
  simp only [Option.some.injEq] at hdesc'
  subst hdesc'
  have conv : ∀ {idx : Option UInt8} {e e' : Device} {i : UInt8},
      rusbString p h.stringAscii idx e = .ok (i, e') →
      (idx.bind h.stringAscii = none ∧ i = 0 ∧ e'.stringPool = e.stringPool) ∨
      ∃ s, idx.bind h.stringAscii = some s ∧ newStringScan p e.stringPool 256 1 = .ok i ∧
        e'.stringPool = poolInsert e.stringPool i s := by
    intro idx e e' i he
    rcases rusbString_inv he with ⟨a, b, c⟩ | ⟨k, s, a, b, c, f⟩
    · exact Or.inl ⟨by rw [a]; rfl, b, by rw [c]⟩
    · exact Or.inr ⟨s, by rw [a]; exact b, c, by rw [f]⟩
  have c1 := conv h1
  have c2 := conv h2
  have c3 := conv h3
  have key := pool_three (p := p) (P0 := (rusbBase h desc cfg interfaces).stringPool)
    (P1 := d1.stringPool) (P2 := d2.stringPool) (P3 := d3.stringPool) (fun _ => rfl) c1 c2 c3
  obtain ⟨_, e1⟩ := rusbString_keeps h1
  obtain ⟨_, e2⟩ := rusbString_keeps h2
  obtain ⟨_, e3⟩ := rusbString_keeps h3
  have f1 : d3.stringManufacturer = i1 := by rw [e3, e2]
  have f2 : d3.stringProduct = i2 := by rw [e3]
  simp only [presented, f1, f2]
  exact key

/-- C52 for nusb, the device's own strings. -/
theorem C52_nusb_partial (p : Profile) (n : NusbDev) (d : Device)
    (hd : nusbDevice p n = .ok (some d)) :
    presented d d.stringManufacturer = n.manufacturer ∧
    presented d d.stringProduct = n.product ∧ presented d d.stringSerial = n.serial := by
  obtain ⟨cfg, interfaces, speed, i1, d1, i2, d2, i3, d3, _, _, _, h1, h2, h3, rfl⟩ :=
    nusbDevice_inv hd
  have conv : ∀ {o : Option Str} {e e' : Device} {i : UInt8},
      nusbString p o e = .ok (i, e') →
      (o = none ∧ i = 0 ∧ e'.stringPool = e.stringPool) ∨
      ∃ s, o = some s ∧ newStringScan p e.stringPool 256 1 = .ok i ∧
        e'.stringPool = poolInsert e.stringPool i s := by
    intro o e e' i he
    rcases nusbString_inv he with ⟨a, b, c⟩ | ⟨s, a, c, f⟩
    · exact Or.inl ⟨a, b, by rw [c]⟩
    · exact Or.inr ⟨s, a, c, by rw [f]⟩
  have c1 := conv h1
  have c2 := conv h2
  have c3 := conv h3
  have key := pool_three (p := p) (P0 := (nusbBase n cfg speed interfaces).stringPool)
    (P1 := d1.stringPool) (P2 := d2.stringPool) (P3 := d3.stringPool) (fun _ => rfl) c1 c2 c3
  obtain ⟨_, e1⟩ := nusbString_keeps h1
  obtain ⟨_, e2⟩ := nusbString_keeps h2
  obtain ⟨_, e3⟩ := nusbString_keeps h3
  have f1 : d3.stringManufacturer = i1 := by rw [e3, e2]
  have f2 : d3.stringProduct = i2 := by rw [e3]
  simp only [presented, f1, f2]
  exact key

/-- What the client sees of `hostA`: manufacturer, serial and interface string. -/
def seen : Outcome (Option (Option Str × Option Str × Option (Option Str))) :=
  match rusbDevice release hostA with
  | .ok (some d) => .ok (some (presented d d.stringManufacturer, presented d d.stringSerial,
      d.interfaces.head?.map (fun f => presented d f.stringInterface)))
  | .ok none => .ok none
  | .err e => .err e
  | .panic => .panic
  | .diverge => .diverge

/-- C52 fails for interface strings: the host calls the interface "if", the client is shown the
manufacturer's name "Ac" instead. -/
theorem C52_fails : seen = .ok (some (some ['A', 'c'], some ['7'], some (some ['A', 'c']))) ∧
    hostA.stringAscii 1 = some ['i', 'f'] := ⟨rfl, rfl⟩

/-! ## C41 -/

theorem clip_length (b : Bytes) (n : UInt16) (h : b.length < 65536) : (clip b n).length ≤ n.toNat := by
  rw [clip_take b n h, List.length_take]
  omega

/-- C41 for handlers that respect the limit and control requests whose wLength does (what is
missing: the library does not enforce the limit itself, see `C41_fails`): the data of a successful
IN transfer is no longer than the request's buffer. -/
theorem C41_limit_partial {σ} (env : Env σ) (p : Profile) (d : Device) (e : Endpoint)
    (owner : Option Iface) (len : UInt32) (setup : SetupPacket) (data : Bytes) (w : World σ) (b : Bytes)
    (hw : setup.length.toNat ≤ len.toNat)
    (hi : 128 ≤ e.address.toNat)
    (hfull : ∀ f, descriptorOf d (setup.value.toNat / 256) (setup.value.toNat % 256) = some f → f.length < 65536)
    (hif : ∀ h i e s dt u b, (env.iface h i e len s dt u).1 = .ok b → b.length ≤ len.toNat)
    (hdev : ∀ h s dt u b, (env.dev h len s dt u).1 = .ok b → b.length ≤ len.toNat)
    (h : (d.handleUrb env p e owner len setup data w).1 = .ok b) : b.length ≤ len.toNat := by
  have hinv : ∀ c : HCall, (match c with | .iface _ _ _ l _ _ => l = len | .dev _ l _ _ => l = len) →
      (env.invoke w c).1 = .ok b → b.length ≤ len.toNat := by
    intro c hc hb
    rw [(invoke_eq env w c).1] at hb
    split at hb
    · simp at hb
    · have hto : ∀ r : HRes, r.toOutcome = .ok b → r = .ok b := by
        intro r hr; cases r <;> simp_all [HRes.toOutcome]
      have := hto _ hb
      cases c with
      | iface h' i e' l s dt => simp only at hc; subst hc; exact hif _ _ _ _ _ _ _ this
      | dev h' l s dt => simp only at hc; subst hc; exact hdev _ _ _ _ _ this
  rw [handleUrb_addressee] at h
  cases hc : addressee d e owner len setup data with
  | some c =>
    rw [hc] at h
    refine hinv c ?_ h
    unfold addressee at hc
    split at hc
    · split at hc
      · simp at hc
      · split at hc
        · simp only [Option.map_eq_some_iff] at hc; obtain ⟨_, _, rfl⟩ := hc; rfl
        · split at hc
          · simp only [Option.map_eq_some_iff] at hc; obtain ⟨_, _, rfl⟩ := hc; rfl
          · simp at hc
    · split at hc
      · simp only [Option.map_eq_some_iff] at hc; obtain ⟨_, _, rfl⟩ := hc; rfl
      · simp at hc
  | none =>
    rw [hc] at h
    simp only at h
    split at h
    · simp only [hi, if_true] at h
      rw [getDescriptor_spec] at h
      split at h
      · simp at h
      · cases hf : descriptorOf d (setup.value.toNat / 256) (setup.value.toNat % 256) with
        | none => simp [hf] at h
        | some f =>
          simp only [hf, Outcome.ok.injEq] at h
          subst h
          rw [← clip_atMost]
          exact Nat.le_trans (clip_length f _ (hfull f hf)) hw
    · simp at h

/-- A serial device whose handler 0 is the bundled serial handler. -/
def cdcEnv : Env Cdc where
  iface _ _ e _ _ _ c := c.handleUrb e
  dev _ _ _ _ c := (.ok [], c)

def cdcDev : Device := { devA with interfaces := [{ intf1 with endpoints := Cdc.endpoints, handler := 0 }] }

/-- The server's answers to a bulk IN submit for 2 bytes when 5 bytes are buffered. -/
def cdcReply : List Resp :=
  let cmd : Cmd := .submit ⟨1, 5, 65538, 1, 2⟩ 0 2 0 0 0 [0, 0, 0, 0, 0, 0, 0, 0] [] []
  let x : Conn := { Conn.new ⟨wireCmd cmd, .unexpectedEof⟩ with current := some cdcDev.busId }
  ((x.iterate cdcEnv release ⟨[], [(cdcDev.busId, cdcDev)], ⟨⟨[1, 2, 3, 4, 5]⟩, fun _ => false, fun _ => false⟩⟩
    .full).2.served).map (·.2)

/-- C41 fails: asked for 2 bytes, the server answers with 5. -/
theorem C41_fails : cdcReply = [.retSubmit ⟨3, 5, 65538, 1, 2⟩ 0 5 0 0 0 [1, 2, 3, 4, 5] []] := rfl

/-- Handlers that respect the limit, and a transfer to one of them. -/
def shortEnv : Env Nat where
  iface _ _ _ len _ _ n := (.ok (List.replicate len.toNat 1), n)
  dev _ len _ _ n := (.ok (List.replicate len.toNat 2), n)

example : (∀ h i e s dt u b, (shortEnv.iface h i e 3 s dt u).1 = .ok b → b.length ≤ (3 : UInt32).toNat) ∧
    (devA.handleUrb shortEnv dev ⟨0x81, 2, 64, 0⟩ (some intf0) 3 ⟨0, 0, 0, 0, 0⟩ [] world).1 = .ok [1, 1, 1] := by
  refine ⟨?_, rfl⟩
  intro h i e s dt u b hb
  simp only [shortEnv, HRes.ok.injEq] at hb
  subst hb
  simp

end Usbip
