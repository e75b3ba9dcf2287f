import Verif.Lemmas.Bytes
import Verif.Spec.Descriptor
import Verif.Model.Util
/-! Helper lemmas about descriptors. -/

namespace Usbip
open Spec

theorem lo_byte (u : UInt16) : u.toUInt8 = UInt8.ofNat (u.toNat % 256) := by
  apply u8_ext; simp

theorem hi_byte (u : UInt16) : (u >>> 8).toUInt8 = UInt8.ofNat (u.toNat / 256) := by
  apply u8_ext
  rw [UInt16.toNat_toUInt8, UInt16.toNat_shiftRight]
  simp only [show (8 : UInt16).toNat % 16 = 8 from rfl, Nat.shiftRight_eq_div_pow,
    UInt8.toNat_ofNat']

theorem lo_hi (u : UInt16) : [u.toUInt8, (u >>> 8).toUInt8] = le u.toNat := by
  rw [lo_byte, hi_byte]; rfl

theorem asU16_toNat (n : Nat) : (asU16 n).toNat = n % 65536 := by simp [asU16]

theorem clip_full (desc : Bytes) : clip desc 65535 = desc := by
  unfold clip
  rw [if_neg]
  rw [UInt16.lt_iff_toNat_lt]
  have := u16_lt (asU16 desc.length)
  have h : (65535 : UInt16).toNat = 65535 := rfl
  omega

theorem clip_take (desc : Bytes) (n : UInt16) (h : desc.length < 65536) :
    clip desc n = desc.take n.toNat := by
  unfold clip
  have e := asU16_toNat desc.length
  rw [Nat.mod_eq_of_lt h] at e
  split
  · rename_i hlt
    rw [UInt16.lt_iff_toNat_lt] at hlt
    rw [resize, Nat.sub_eq_zero_of_le (by omega)]
    simp
  · rename_i hlt
    rw [UInt16.lt_iff_toNat_lt] at hlt
    rw [List.take_of_length_le (by omega)]

theorem clip_zero_len (desc : Bytes) (n : UInt16) (h : desc.length = 65536) :
    clip desc n = desc := by
  unfold clip
  rw [if_neg]
  rw [UInt16.lt_iff_toNat_lt, asU16_toNat, h]
  omega

/-! ## Descriptor sequences -/

/-- A block: a byte string that starts with its own length. -/
def IsBlock (b : Bytes) : Prop := ∃ n rest, b = n :: rest ∧ n.toNat = b.length

theorem walk_block_append (b bs : Bytes) (h : IsBlock b) :
    walk (b ++ bs) = (walk bs).map (b :: ·) := by
  obtain ⟨n, rest, rfl, hn⟩ := h
  simp only [List.length_cons] at hn
  rw [List.cons_append, walk]
  have h1 : n.toNat - 1 = rest.length := by omega
  rw [if_neg (by simp; omega)]
  simp [h1]

theorem walk_flatten_append (bls : List Bytes) (bs : Bytes) (h : ∀ b ∈ bls, IsBlock b) :
    walk (bls.flatten ++ bs) = (walk bs).map (bls ++ ·) := by
  induction bls with
  | nil => cases h : walk bs <;> simp [h]
  | cons b bls ih =>
    rw [List.flatten_cons, List.append_assoc, walk_block_append _ _ (h b (by simp)),
      ih (fun x hx => h x (by simp [hx])), Option.map_map]
    rfl

theorem walk_nil : walk [] = some [] := by rw [walk]

theorem walk_flatten (bls : List Bytes) (h : ∀ b ∈ bls, IsBlock b) :
    walk bls.flatten = some bls := by
  have := walk_flatten_append bls [] h
  simpa [walk_nil] using this

theorem walk_inv (bs : Bytes) (bls : List Bytes) (h : walk bs = some bls) :
    bs = bls.flatten ∧ ∀ b ∈ bls, IsBlock b := by
  induction bls generalizing bs with
  | nil =>
    match bs with
    | [] => simp
    | n :: rest =>
      rw [walk] at h
      split at h
      · simp at h
      · cases hw : walk (rest.drop (n.toNat - 1)) <;> rw [hw] at h <;> simp at h
  | cons b bls ih =>
    match bs with
    | [] => rw [walk] at h; simp at h
    | n :: rest =>
      rw [walk] at h
      split at h
      · simp at h
      · rename_i hn
        simp only [Option.map_eq_some_iff, List.cons.injEq] at h
        obtain ⟨t, ht, hb, rfl⟩ := h
        obtain ⟨h1, h2⟩ := ih _ ht
        subst hb
        refine ⟨?_, ?_⟩
        · rw [List.flatten_cons, ← h1]; simp
        · intro b hb
          rcases List.mem_cons.mp hb with rfl | hb
          · refine ⟨_, _, rfl, ?_⟩
            simp
            omega
          · exact h2 b hb

/-- Every byte string is blocks followed by a remainder that is empty, starts with a zero byte,
or announces more than is there. -/
theorem blocks_tail (bs : Bytes) : ∃ (bls : List Bytes) (tail : Bytes), bs = bls.flatten ++ tail ∧
    (∀ b ∈ bls, IsBlock b) ∧
    (tail = [] ∨ (∃ rest, tail = 0 :: rest) ∨
      ∃ n rest, tail = n :: rest ∧ rest.length + 1 < n.toNat) := by
  induction hn : bs.length using Nat.strongRecOn generalizing bs with
  | ind k ih =>
    match bs with
    | [] => exact ⟨[], [], rfl, by simp, Or.inl rfl⟩
    | n :: rest =>
      by_cases h0 : n.toNat = 0
      · refine ⟨[], n :: rest, rfl, by simp, Or.inr (Or.inl ⟨rest, ?_⟩)⟩
        rw [u8_ext (a := n) (b := 0) h0]
      · by_cases h1 : rest.length + 1 < n.toNat
        · exact ⟨[], n :: rest, rfl, by simp, Or.inr (Or.inr ⟨n, rest, rfl, h1⟩)⟩
        · obtain ⟨bls, tail, he, hb, ht⟩ := ih (rest.drop (n.toNat - 1)).length
            (by rw [← hn]; simp; omega) _ rfl
          refine ⟨(n :: rest.take (n.toNat - 1)) :: bls, tail, ?_, ?_, ht⟩
          · rw [List.flatten_cons, List.append_assoc, ← he]; simp
          · intro b hb'
            rcases List.mem_cons.mp hb' with rfl | hb'
            · exact ⟨_, _, rfl, by simp; omega⟩
            · exact hb b hb'

theorem verifyFrom_block (pre b tail : Bytes) (h : IsBlock b) :
    verifyFrom (pre ++ (b ++ tail)) pre.length = verifyFrom (pre ++ (b ++ tail)) (pre ++ b).length := by
  obtain ⟨n, rest, rfl, hn⟩ := h
  simp only [List.length_cons] at hn
  conv => lhs; rw [verifyFrom]
  have hlt : pre.length < (pre ++ (n :: rest ++ tail)).length := by simp
  rw [dif_pos hlt]
  have hg : (pre ++ (n :: rest ++ tail))[pre.length] = n := by simp
  rw [hg, if_neg (by omega), hn]
  simp

theorem verifyFrom_blocks (pre : Bytes) (bls : List Bytes) (tail : Bytes)
    (h : ∀ b ∈ bls, IsBlock b) :
    verifyFrom (pre ++ (bls.flatten ++ tail)) pre.length =
      verifyFrom (pre ++ (bls.flatten ++ tail)) (pre ++ bls.flatten).length := by
  induction bls generalizing pre with
  | nil => simp
  | cons b bls ih =>
    rw [List.flatten_cons, List.append_assoc, verifyFrom_block _ _ _ (h b (by simp))]
    have := ih (pre ++ b) (fun x hx => h x (by simp [hx]))
    rw [List.append_assoc, List.append_assoc] at this
    exact this

theorem verify_blocks (bls : List Bytes) (tail : Bytes) (h : ∀ b ∈ bls, IsBlock b) :
    verifyDescriptor (bls.flatten ++ tail) =
      match tail with
      | [] => .ok ()
      | n :: rest => if n.toNat = 0 then .diverge else
        verifyFrom (bls.flatten ++ n :: rest) (bls.flatten.length + n.toNat) := by
  have := verifyFrom_blocks [] bls tail h
  simp only [List.nil_append, List.length_nil] at this
  rw [verifyDescriptor, this, verifyFrom]
  cases tail with
  | nil => simp
  | cons n rest =>
    have hlt : bls.flatten.length < (bls.flatten ++ n :: rest).length := by simp
    rw [dif_pos hlt]
    have hg : (bls.flatten ++ n :: rest)[bls.flatten.length] = n := by simp
    rw [hg]

theorem verify_over (bls : List Bytes) (n : UInt8) (rest : Bytes) (h : ∀ b ∈ bls, IsBlock b)
    (hn : rest.length + 1 < n.toNat) : verifyDescriptor (bls.flatten ++ n :: rest) = .panic := by
  rw [verify_blocks _ _ h]
  simp only
  rw [if_neg (by omega), verifyFrom, dif_neg (by simp; omega), if_neg (by simp; omega)]

theorem verify_zero (bls : List Bytes) (rest : Bytes) (h : ∀ b ∈ bls, IsBlock b) :
    verifyDescriptor (bls.flatten ++ 0 :: rest) = .diverge := by
  rw [verify_blocks _ _ h]; rfl

theorem verify_ok (bls : List Bytes) (h : ∀ b ∈ bls, IsBlock b) :
    verifyDescriptor bls.flatten = .ok () := by
  have := verify_blocks bls [] h
  simpa using this

/-! ## Configuration descriptor -/

theorem endpoint_descriptor (e : Endpoint) : e.descriptor = endpointBlock e := by
  simp only [Endpoint.descriptor, endpointBlock, ← lo_hi]
  rfl

theorem iface_descriptor (f : Iface) (i : Nat) (h : (walk f.classSpecificDescriptor).isSome) :
    f.descriptor i = (interfaceBlocks i f).flatten := by
  obtain ⟨bls, hb⟩ := Option.isSome_iff_exists.mp h
  obtain ⟨h1, _⟩ := walk_inv _ _ hb
  simp only [Iface.descriptor, interfaceBlocks, hb, Option.getD_some, List.flatten_append,
    List.flatten_cons, List.flatten_nil, List.append_nil, ← h1]
  simp only [interfaceBlock, asU8, DescriptorType.toU8, List.flatMap_def]
  congr 2
  exact List.map_congr_left (fun e _ => endpoint_descriptor e)

theorem ifaceDescriptors_flatten (fs : List Iface) (i : Nat)
    (h : ∀ f ∈ fs, (walk f.classSpecificDescriptor).isSome) :
    ifaceDescriptors i fs = (allBlocks i fs).flatten := by
  induction fs generalizing i with
  | nil => rfl
  | cons f fs ih =>
    simp only [ifaceDescriptors, allBlocks, List.flatten_append]
    rw [iface_descriptor f i (h f (by simp)), ih (i + 1) (fun x hx => h x (by simp [hx]))]

theorem interfaceBlocks_isBlock (f : Iface) (i : Nat)
    (h : (walk f.classSpecificDescriptor).isSome) : ∀ b ∈ interfaceBlocks i f, IsBlock b := by
  obtain ⟨bls, hb⟩ := Option.isSome_iff_exists.mp h
  obtain ⟨_, h2⟩ := walk_inv _ _ hb
  intro b hm
  simp only [interfaceBlocks, hb, Option.getD_some, List.mem_append, List.mem_map,
    List.mem_singleton] at hm
  rcases hm with (rfl | hm) | ⟨e, -, rfl⟩
  · exact ⟨_, _, rfl, rfl⟩
  · exact h2 b hm
  · exact ⟨_, _, rfl, rfl⟩

theorem allBlocks_isBlock (fs : List Iface) (i : Nat)
    (h : ∀ f ∈ fs, (walk f.classSpecificDescriptor).isSome) : ∀ b ∈ allBlocks i fs, IsBlock b := by
  induction fs generalizing i with
  | nil => simp [allBlocks]
  | cons f fs ih =>
    intro b hb
    simp only [allBlocks, List.mem_append] at hb
    rcases hb with hb | hb
    · exact interfaceBlocks_isBlock f i (h f (by simp)) b hb
    · exact ih (i + 1) (fun x hx => h x (by simp [hx])) b hb

theorem configDescriptor_length (d : Device) :
    d.configDescriptor.length = 9 + (ifaceDescriptors 0 d.interfaces).length := by
  simp [Device.configDescriptor]; omega

theorem configDescriptor_eq (d : Device) (hl : d.configDescriptor.length < 65536) :
    d.configDescriptor = configBlock d d.configDescriptor.length ++ ifaceDescriptors 0 d.interfaces := by
  have h1 := configDescriptor_length d
  have h3 : d.configDescriptor =
      [0x09, 2, (asU16 (9 + (ifaceDescriptors 0 d.interfaces).length)).toUInt8,
       (asU16 (9 + (ifaceDescriptors 0 d.interfaces).length) >>> 8).toUInt8,
       asU8 d.interfaces.length, d.configurationValue, d.stringConfiguration, 0x80, 0x32]
      ++ ifaceDescriptors 0 d.interfaces := rfl
  have h2 : (asU16 d.configDescriptor.length).toNat = d.configDescriptor.length := by
    rw [asU16_toNat, Nat.mod_eq_of_lt hl]
  have h4 := lo_hi (asU16 d.configDescriptor.length)
  rw [h2] at h4
  rw [configBlock, ← h4]
  conv => lhs; rw [h3]
  rw [← h1]
  rfl

/-! ## UTF-16 -/

theorem utf16_length (s : Str) : (utf16 s).length = units s := by
  induction s with
  | nil => rfl
  | cons c s ih =>
    simp only [utf16, List.flatMap_cons, List.length_append, units, List.map_cons, List.sum_cons]
    simp only [utf16, units] at ih
    rw [ih]
    congr 1
    unfold utf16Char
    split <;> rename_i h <;> simp [h]

theorem unitsOfBytes_le (us : List UInt16) :
    unitsOfBytes (us.flatMap (fun (u : UInt16) => [u.toUInt8, (u >>> 8).toUInt8])) = some (us.map UInt16.toNat) := by
  induction us with
  | nil => rfl
  | cons u us ih =>
    have := u16_lt u
    simp only [List.flatMap_cons, List.cons_append, List.nil_append, unitsOfBytes, ih,
      Option.map_some, List.map_cons, Option.some.injEq, List.cons.injEq, and_true]
    rw [hi_byte, UInt8.toNat_ofNat', UInt16.toNat_toUInt8]
    omega

theorem char_valid (c : Char) : c.toNat < 0xD800 ∨ (0xDFFF < c.toNat ∧ c.toNat < 0x110000) := c.valid

theorem decodeUtf16_char (c : Char) (rest : List Nat) (out : List Nat)
    (h : decodeUtf16 rest = some out) :
    decodeUtf16 ((utf16Char c).map UInt16.toNat ++ rest) = some (c.toNat :: out) := by
  have hv := char_valid c
  unfold utf16Char
  by_cases hc : c.toNat < 0x10000
  · simp only [hc, if_true, List.map_cons, List.map_nil, List.cons_append, List.nil_append,
      UInt16.toNat_ofNat']
    have e : c.toNat % 2 ^ 16 = c.toNat := by omega
    rw [e, decodeUtf16.eq_def]
    simp only
    rw [if_neg (by omega), if_neg (by omega), h]
    rfl
  · simp only [hc, if_false, List.map_cons, List.map_nil, List.cons_append, List.nil_append,
      UInt16.toNat_ofNat']
    have e1 : (55296 + (c.toNat - 65536) / 1024) % 2 ^ 16 = 55296 + (c.toNat - 65536) / 1024 := by
      omega
    have e2 : (56320 + (c.toNat - 65536) % 1024) % 2 ^ 16 = 56320 + (c.toNat - 65536) % 1024 := by
      omega
    rw [e1, e2, decodeUtf16.eq_def]
    simp only
    rw [if_pos (by omega), if_pos (by omega), h]
    simp only [Option.map_some, Option.some.injEq, List.cons.injEq, and_true]
    omega

theorem decodeUtf16_utf16 (s : Str) :
    decodeUtf16 ((utf16 s).map UInt16.toNat) = some (s.map Char.toNat) := by
  induction s with
  | nil => rfl
  | cons c s ih =>
    simp only [utf16, List.flatMap_cons, List.map_append, List.map_cons]
    exact decodeUtf16_char c _ _ ih

theorem stringDescriptor_ok (p : Profile) (s : Str) (h : units s ≤ 126) :
    stringDescriptor p s = .ok ([UInt8.ofNat (2 + 2 * units s), 3] ++
      (utf16 s).flatMap (fun (u : UInt16) => [u.toUInt8, (u >>> 8).toUInt8])) := by
  simp only [stringDescriptor, utf16_length]
  have h1 : (asU8 (units s)).toNat = units s := by simp [asU8]; omega
  have h2 : (2 : UInt8).toNat = 2 := rfl
  have hm : mulU8 p (asU8 (units s)) 2 = .ok (asU8 (units s) * 2) := by
    simp [mulU8, h1]; intro _; omega
  rw [hm]
  have h3 : (asU8 (units s) * 2).toNat = units s * 2 := by
    rw [UInt8.toNat_mul, h1, h2]; omega
  have ha : addU8 p 2 (asU8 (units s) * 2) = .ok (2 + asU8 (units s) * 2) := by
    simp only [addU8, h2, h3]
    rw [if_neg (by simp; intro _; omega)]
  simp only [Outcome.bind_ok, ha]
  have h4 : 2 + asU8 (units s) * 2 = UInt8.ofNat (2 + 2 * units s) := by
    apply u8_ext
    rw [UInt8.toNat_add, h3, h2, UInt8.toNat_ofNat']
    omega
  rw [h4]; rfl

theorem stringDescriptor_length (us : List UInt16) :
    (us.flatMap (fun (u : UInt16) => [u.toUInt8, (u >>> 8).toUInt8])).length = 2 * us.length := by
  induction us with
  | nil => rfl
  | cons u us ih => simp only [List.flatMap_cons, List.length_append, ih, List.length_cons]; simp; omega

/-- Exactly when building a string descriptor panics. -/
theorem stringDescriptor_panic (p : Profile) (s : Str) :
    stringDescriptor p s = .panic ↔ p.overflowChecks = true ∧ 127 ≤ units s % 256 := by
  simp only [stringDescriptor, utf16_length]
  have h1 : (asU8 (units s)).toNat = units s % 256 := by simp [asU8]
  have h2 : (2 : UInt8).toNat = 2 := rfl
  cases hp : p.overflowChecks
  · simp [mulU8, addU8, hp]
  · simp only [mulU8, hp, h1, h2, Bool.true_and, decide_eq_true_eq, true_and]
    by_cases hm : 256 ≤ units s % 256 * 2
    · rw [if_pos hm]; simp; omega
    · rw [if_neg hm]
      simp only [Outcome.bind_ok, addU8, hp, Bool.true_and, h2, UInt8.toNat_mul, h1,
        decide_eq_true_eq]
      by_cases ha : 256 ≤ 2 + units s % 256 * 2 % 2 ^ 8
      · rw [if_pos ha]; simp; omega
      · rw [if_neg ha]; simp; omega

theorem stringDescriptor_total (p : Profile) (s : Str) :
    stringDescriptor p s = .panic ∨ ∃ bs, stringDescriptor p s = .ok bs := by
  simp only [stringDescriptor, mulU8, addU8]
  split
  · left; rfl
  · simp only [Outcome.bind_ok]
    split
    · left; rfl
    · right; exact ⟨_, rfl⟩

end Usbip
