import Verif.Lemmas.Urb
/-! Helper lemmas: the device as a whole against its specification. -/

namespace Usbip
open Spec

theorem findEpIn_find (a : UInt8) (es : List Endpoint) (o : Option Iface) :
    (es.map (fun e => (e, o))).find? (fun x => x.1.address == a) = (findEpIn a es).map (fun e => (e, o)) := by
  induction es with
  | nil => rfl
  | cons e es ih =>
    rw [List.map_cons, List.find?_cons, findEpIn]
    by_cases h : e.address = a
    · simp [h]
    · have hb : (e.address == a) = false := by simpa using h
      rw [hb, if_neg h, ih]

theorem findEpIfs_find (a : UInt8) (fs : List Iface) :
    (fs.flatMap (fun f => f.endpoints.map (fun e => (e, some f)))).find? (fun x => x.1.address == a)
      = findEpIfs a fs := by
  induction fs with
  | nil => rfl
  | cons f fs ih =>
    rw [List.flatMap_cons, List.find?_append, findEpIn_find, ih, findEpIfs]
    cases findEpIn a f.endpoints <;> rfl

theorem endpointAt_eq (d : Device) (a : UInt8) : endpointAt d a = d.findEp a := by
  unfold endpointAt Device.findEp
  rw [List.find?_cons, List.find?_cons, findEpIfs_find]
  by_cases h1 : a = d.ep0In.address
  · simp [h1]
  · by_cases h2 : a = d.ep0Out.address
    · subst h2
      simp only [if_neg h1, if_true, beq_iff_eq, beq_self_eq_true]
      split
      · next h => exact absurd (beq_iff_eq.mp h).symm h1
      · rfl
    · simp only [if_neg h1, if_neg h2]
      split
      · next h => exact absurd (beq_iff_eq.mp h).symm h1
      · split
        · next h => exact absurd (beq_iff_eq.mp h).symm h2
        · rfl

theorem setupAt_eq (b : Bytes) : setupAt b = SetupPacket.parse b := by
  unfold setupAt SetupPacket.parse
  split
  · next h =>
    match b, h with
    | [s0, s1, s2, s3, s4, s5, s6, s7], _ =>
      simp only [List.getD_cons_zero, List.getD_cons_succ, SetupPacket.mk.injEq, true_and]
      have := u8_lt s2
      have := u8_lt s3
      have := u8_lt s4
      have := u8_lt s5
      have := u8_lt s6
      have := u8_lt s7
      and_intros <;> apply u16_ext <;> rw [le16_toNat, UInt16.toNat_ofNat'] <;> omega
  · next h =>
    split
    · simp at h
    · rfl

/-! ## Descriptors -/

theorem iface_bytes (f : Iface) (i : Nat) : f.descriptor i = interfaceBytes i f := by
  simp only [Iface.descriptor, interfaceBytes, interfaceBlock, asU8, DescriptorType.toU8]
  congr 1
  rw [List.flatMap_def, List.flatMap_def]
  exact congrArg List.flatten (List.map_congr_left (fun e _ => endpoint_descriptor e))

theorem ifaces_bytes (fs : List Iface) (i : Nat) : ifaceDescriptors i fs = interfacesBytes i fs := by
  induction fs generalizing i with
  | nil => rfl
  | cons f fs ih => rw [ifaceDescriptors, interfacesBytes, iface_bytes, ih]

theorem le_mod (n : Nat) : le (n % 65536) = le n := by
  unfold le
  rw [List.cons.injEq, List.cons.injEq]
  refine ⟨?_, ?_, rfl⟩ <;> apply u8_ext <;> rw [UInt8.toNat_ofNat', UInt8.toNat_ofNat'] <;> omega

theorem config_bytes (d : Device) : d.configDescriptor = configBytes d := by
  unfold configBytes configBlock
  rw [← ifaces_bytes, ← le_mod, ← asU16_toNat, ← lo_hi]
  rfl

theorem utf16_bytes (s : Str) :
    (utf16 s).flatMap (fun (u : UInt16) => [u.toUInt8, (u >>> 8).toUInt8]) = s.flatMap utf16le := by
  induction s with
  | nil => rfl
  | cons c s ih =>
    rw [utf16, List.flatMap_cons, List.flatMap_append, List.flatMap_cons, ← ih]
    congr 1
    unfold utf16Char utf16le
    have hv := char_valid c
    have hle : ∀ n, n < 65536 → le (UInt16.ofNat n).toNat = le n := by
      intro n hn
      rw [UInt16.toNat_ofNat', Nat.mod_eq_of_lt hn]
    by_cases h : c.toNat < 0x10000
    · simp only [if_pos h, List.flatMap_cons, List.flatMap_nil, List.append_nil, lo_hi, hle _ h]
    · simp only [if_neg h, List.flatMap_cons, List.flatMap_nil, List.append_nil, lo_hi]
      rw [hle _ (by omega), hle _ (by omega)]

theorem string_bytes {p : Profile} {s : Str} (h : ¬ (p.overflowChecks = true ∧ 127 ≤ units s % 256)) :
    stringDescriptor p s = .ok (stringBlock s) := by
  rw [← stringDescriptor_panic] at h
  obtain ⟨bs, hb⟩ := (stringDescriptor_total p s).resolve_left h
  rw [hb]
  simp only [stringDescriptor, Outcome.bind_eq_ok] at hb
  obtain ⟨dbl, h1, len, h2, h3⟩ := hb
  simp only [Outcome.pure_eq, Outcome.ok.injEq] at h3
  rw [← h3, utf16_bytes, stringBlock]
  congr 2
  simp only [mulU8] at h1
  split at h1
  · simp at h1
  simp only [addU8] at h2
  split at h2
  · simp at h2
  simp only [Outcome.ok.injEq] at h1 h2
  rw [← h2, ← h1]
  rw [List.cons.injEq]
  refine ⟨?_, rfl⟩
  apply u8_ext
  rw [UInt8.toNat_add, UInt8.toNat_mul, UInt8.toNat_ofNat', utf16_length]
  simp only [asU8, UInt8.toNat_ofNat']
  show (2 + units s % 2 ^ 8 * 2 % 2 ^ 8) % 2 ^ 8 = _
  omega

theorem clip_atMost (b : Bytes) (n : UInt16) : clip b n = atMost n.toNat b := by
  unfold clip atMost
  have : n < asU16 b.length ↔ n.toNat < b.length % 65536 := by
    rw [UInt16.lt_iff_toNat_lt, asU16_toNat]
  by_cases h : n.toNat < b.length % 65536
  · rw [if_pos (this.mpr h), if_pos h, resize]
    have : n.toNat - b.length = 0 := by have := Nat.mod_le b.length 65536; omega
    rw [this]; simp
  · rw [if_neg (mt this.mp h), if_neg h]

theorem value_type (v k : UInt16) : v >>> 8 = k ↔ v.toNat / 256 = k.toNat := by
  rw [← UInt16.toNat_inj, UInt16.toNat_shiftRight]
  show v.toNat >>> (8 % 16) = _ ↔ _
  rw [Nat.shiftRight_eq_div_pow]

theorem getDescriptor_spec (p : Profile) (d : Device) (setup : SetupPacket) :
    d.getDescriptor p setup =
      if Overflows p d (setup.value.toNat / 256) (setup.value.toNat % 256) then .panic
      else
        match descriptorOf d (setup.value.toNat / 256) (setup.value.toNat % 256) with
        | some b => .ok (atMost setup.length.toNat b)
        | none => .err .invalidInput := by
  have hn : (setup.value.toNat / 256 ≠ 3 ∨ setup.value.toNat % 256 = 0) →
      ¬ Overflows p d (setup.value.toNat / 256) (setup.value.toNat % 256) := by
    rintro h ⟨_, h1, h2, _⟩
    rcases h with h | h
    · exact h h1
    · exact h2 h
  unfold Device.getDescriptor DescriptorType.fromU16
  simp only [value_type]
  have e1 : (1 : UInt16).toNat = 1 := rfl
  have e2 : (2 : UInt16).toNat = 2 := rfl
  have e3 : (3 : UInt16).toNat = 3 := rfl
  have e4 : (4 : UInt16).toNat = 4 := rfl
  have e5 : (5 : UInt16).toNat = 5 := rfl
  have e6 : (6 : UInt16).toNat = 6 := rfl
  have e7 : (7 : UInt16).toNat = 7 := rfl
  have e8 : (8 : UInt16).toNat = 8 := rfl
  have e9 : (9 : UInt16).toNat = 9 := rfl
  have e10 : (10 : UInt16).toNat = 10 := rfl
  have e11 : (11 : UInt16).toNat = 11 := rfl
  have e15 : (15 : UInt16).toNat = 15 := rfl
  simp only [e1, e2, e3, e4, e5, e6, e7, e8, e9, e10, e11, e15]
  unfold descriptorOf
  generalize hT : setup.value.toNat / 256 = T at hn ⊢
  by_cases t3 : T = 3
  · subst t3
    have hlow : setup.value.toUInt8 = UInt8.ofNat (setup.value.toNat % 256) := lo_byte _
    have hz : setup.value.toUInt8 = 0 ↔ setup.value.toNat % 256 = 0 := by
      rw [← UInt8.toNat_inj, hlow, UInt8.toNat_ofNat']
      show _ = 0 ↔ _
      omega
    simp only [show ¬ ((3 : Nat) = 1) by decide, show ¬ ((3 : Nat) = 2) by decide, if_false, if_true]
    by_cases h0 : setup.value.toNat % 256 = 0
    · rw [if_neg (hn (Or.inr h0)), if_pos h0, if_pos (hz.mpr h0), clip_atMost]
      rfl
    · rw [if_neg (mt hz.mp h0), if_neg h0, hlow]
      cases hs : d.stringPool (UInt8.ofNat (setup.value.toNat % 256)) with
      | none =>
        rw [if_neg (fun ⟨_, _, _, s, h, _⟩ => by rw [hs] at h; simp at h)]
        rfl
      | some s =>
        by_cases ho : p.overflowChecks = true ∧ 127 ≤ units s % 256
        · rw [if_pos ⟨ho.1, rfl, h0, s, hs, ho.2⟩]
          simp only [(stringDescriptor_panic p s).mpr ho]
          rfl
        · rw [if_neg (fun ⟨h1, _, _, s', h2, h3⟩ => by rw [hs] at h2; cases h2; exact ho ⟨h1, h3⟩)]
          simp only [string_bytes ho, Option.map_some, Outcome.bind_ok, clip_atMost]
          rfl
  · rw [if_neg (hn (Or.inl t3))]
    by_cases t1 : T = 1
    · simp only [t1, if_true, clip_atMost]; rw [deviceBlock, ← lo_hi, ← lo_hi]; rfl
    · by_cases t2 : T = 2
      · simp only [t2, show ¬ ((2 : Nat) = 1) by decide, if_true, if_false, clip_atMost, config_bytes]
      · by_cases t6 : T = 6
        · subst t6; simp only [clip_atMost]; rfl
        · by_cases t15 : T = 15
          · subst t15; simp only [clip_atMost]; rfl
          · simp only [if_neg t1, if_neg t2, if_neg t3, if_neg t6, if_neg t15]
            have : atMost setup.length.toNat [] = [] := by simp [atMost]
            rw [this]
            by_cases t4 : T = 4
            · subst t4; rfl
            by_cases t5 : T = 5
            · subst t5; rfl
            by_cases t7 : T = 7
            · subst t7; rfl
            by_cases t8 : T = 8
            · subst t8; rfl
            by_cases t9 : T = 9
            · subst t9; rfl
            by_cases t10 : T = 10
            · subst t10; rfl
            by_cases t11 : T = 11
            · subst t11; rfl
            simp only [if_neg t4, if_neg t5, if_neg t7, if_neg t8, if_neg t9, if_neg t10, if_neg t11]

/-! ## The whole device -/

theorem HRes.said_data {r : HRes} {b : Bytes} : Spec.HRes.said r = .data b ↔ r.toOutcome = .ok b := by
  cases r <;> simp [Spec.HRes.said, HRes.toOutcome]

/-- How an answer of the model stands for what the device says. -/
def Spec.Said.Is : Said → Outcome Bytes → Prop
  | .data b, o => o = .ok b
  | .failure, o => ∃ e, o = .err e
  | .crash, o => o = .panic

theorem invoke_said {σ} (env : Env σ) (w : World σ) (c : HCall) :
    (if crashed w c.target then (Said.crash, w)
      else (Spec.HRes.said (c.answer env w.user).1, after w c.target (c.answer env w.user).1 (c.answer env w.user).2)).1.Is
        (env.invoke w c).1 ∧
    (if crashed w c.target then (Said.crash, w)
      else (Spec.HRes.said (c.answer env w.user).1, after w c.target (c.answer env w.user).1 (c.answer env w.user).2)).2
        = (env.invoke w c).2 := by
  cases c with
  | iface h i e l s d =>
    simp only [crashed, HCall.target, Env.invoke, HCall.answer]
    by_cases hp : w.ifPoisoned h = true
    · simp [hp, Said.Is]
    · simp only [hp, if_false, Bool.false_eq_true]
      generalize env.iface h i e l s d w.user = r
      obtain ⟨r, u⟩ := r
      cases r with
      | ok b => simp [Spec.HRes.said, Said.Is, HRes.toOutcome, after]
      | err e => simp [Spec.HRes.said, Said.Is, HRes.toOutcome, after]
      | panic =>
        refine ⟨rfl, ?_⟩
        simp only [after, World.mk.injEq, true_and]
        constructor
        · funext k
          by_cases hk : k = h
          · simp [hk]
          · simp [hk, Ne.symm hk]
        · funext k; simp
  | dev h l s d =>
    simp only [crashed, HCall.target, Env.invoke, HCall.answer]
    by_cases hp : w.devPoisoned h = true
    · simp [hp, Said.Is]
    · simp only [hp, if_false, Bool.false_eq_true]
      generalize env.dev h l s d w.user = r
      obtain ⟨r, u⟩ := r
      cases r with
      | ok b => simp [Spec.HRes.said, Said.Is, HRes.toOutcome, after]
      | err e => simp [Spec.HRes.said, Said.Is, HRes.toOutcome, after]
      | panic =>
        refine ⟨rfl, ?_⟩
        simp only [after, World.mk.injEq, true_and]
        constructor
        · funext k; simp
        · funext k
          by_cases hk : k = h
          · simp [hk]
          · simp [hk, Ne.symm hk]

theorem handleUrb_said {σ} (env : Env σ) (p : Profile) (d : Device) (ep : Endpoint) (owner : Option Iface)
    (len : UInt32) (setup : SetupPacket) (data : Bytes) (w : World σ) :
    (said env p d ep owner len setup data w).1.Is (d.handleUrb env p ep owner len setup data w).1 ∧
    (said env p d ep owner len setup data w).2 = (d.handleUrb env p ep owner len setup data w).2 := by
  rw [handleUrb_addressee]
  unfold said
  cases addressee d ep owner len setup data with
  | some c => exact invoke_said env w c
  | none =>
    simp only
    by_cases h : ep.attributes.toNat = 0 ∧ standard ep setup
    · rw [if_pos h, if_pos h]
      by_cases hd : 128 ≤ ep.address.toNat
      · rw [if_pos hd, if_pos hd, getDescriptor_spec]
        by_cases ho : Overflows p d (setup.value.toNat / 256) (setup.value.toNat % 256)
        · simp only [if_pos ho]; exact ⟨rfl, trivial⟩
        · simp only [if_neg ho]
          cases descriptorOf d (setup.value.toNat / 256) (setup.value.toNat % 256) with
          | some b => exact ⟨rfl, rfl⟩
          | none => exact ⟨⟨_, rfl⟩, rfl⟩
      · rw [if_neg hd, if_neg hd, clip_atMost]; exact ⟨rfl, rfl⟩
    · rw [if_neg h, if_neg h]; exact ⟨rfl, rfl⟩

theorem said_data_iff {σ} (env : Env σ) (p : Profile) (d : Device) (ep : Endpoint) (owner : Option Iface)
    (len : UInt32) (setup : SetupPacket) (data : Bytes) (w : World σ) (b : Bytes) :
    (said env p d ep owner len setup data w).1 = .data b ↔
      (d.handleUrb env p ep owner len setup data w).1 = .ok b := by
  have h := (handleUrb_said env p d ep owner len setup data w).1
  cases hs : (said env p d ep owner len setup data w).1 with
  | data b' => rw [hs, Said.Is] at h; rw [h]; simp
  | failure => rw [hs, Said.Is] at h; obtain ⟨e, h⟩ := h; rw [h]; simp
  | crash => rw [hs, Said.Is] at h; rw [h]; simp

end Usbip
