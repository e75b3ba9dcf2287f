import Verif.Lemmas.Urb
import Verif.Lemmas.Client
import Verif.Spec.Samples
/-!
# Properties of descriptors: C12, C13, C14, C44, C45, C56
-/

namespace Usbip
open Spec Samples

/-! ## C12 -/

/-- C12: for every GET_DESCRIPTOR to the device, if the full descriptor (the reply for wLength
0xFFFF) is shorter than 65536 bytes, the reply is its first min(wLength, length) bytes, and no
handler is involved. -/
theorem C12_wlength {σ} (env : Env σ) (p : Profile) (d : Device) (ep : Endpoint)
    (intf : Option Iface) (len : UInt32) (setup : SetupPacket) (data : Bytes) (w w' : World σ)
    (full : Bytes)
    (ha : ep.attributes = 0) (hd : 128 ≤ ep.address.toNat)
    (h1 : setup.requestType = 0x80) (h2 : setup.request = 6)
    (hfull : d.handleUrb env p ep intf len { setup with length := 0xFFFF } data w = (.ok full, w'))
    (hlen : full.length < 65536) :
    d.handleUrb env p ep intf len setup data w = (.ok (full.take setup.length.toNat), w') ∧ w' = w := by
  rw [handleUrb_get env p d ep intf len { setup with length := 0xFFFF } data w ha hd h1 h2] at hfull
  rw [handleUrb_get env p d ep intf len setup data w ha hd h1 h2]
  simp only [Prod.mk.injEq] at hfull
  obtain ⟨hf, rfl⟩ := hfull
  rw [getDescriptor_clip p d setup full hf, clip_take _ _ hlen]
  exact ⟨rfl, rfl⟩

/-- C12, exactly: a full descriptor of any length is cut to wLength exactly when wLength covers all of it or is less than
its length modulo 65536; in the other cases it is returned whole. -/
theorem C12_exact {σ} (env : Env σ) (p : Profile) (d : Device) (ep : Endpoint)
    (intf : Option Iface) (len : UInt32) (setup : SetupPacket) (data : Bytes) (w w' : World σ)
    (full : Bytes)
    (ha : ep.attributes = 0) (hd : 128 ≤ ep.address.toNat)
    (h1 : setup.requestType = 0x80) (h2 : setup.request = 6)
    (hfull : d.handleUrb env p ep intf len { setup with length := 0xFFFF } data w = (.ok full, w')) :
    ∃ b, d.handleUrb env p ep intf len setup data w = (.ok b, w) ∧ (b = full.take setup.length.toNat ∨ b = full) ∧
      (b = full.take setup.length.toNat ↔
        full.length ≤ setup.length.toNat ∨ setup.length.toNat < full.length % 65536) := by
  rw [handleUrb_get env p d ep intf len { setup with length := 0xFFFF } data w ha hd h1 h2] at hfull
  rw [handleUrb_get env p d ep intf len setup data w ha hd h1 h2]
  simp only [Prod.mk.injEq] at hfull
  obtain ⟨hf, rfl⟩ := hfull
  rw [getDescriptor_clip p d setup full hf]
  refine ⟨_, rfl, ?_⟩
  unfold clip
  have hm := Nat.mod_le full.length 65536
  by_cases h : setup.length < asU16 full.length
  · rw [if_pos h]
    rw [UInt16.lt_iff_toNat_lt, asU16_toNat] at h
    have : resize full setup.length.toNat = full.take setup.length.toNat := by
      rw [resize, Nat.sub_eq_zero_of_le (by omega)]; simp
    exact ⟨.inl this, fun _ => .inr h, fun _ => this⟩
  · rw [if_neg h]
    rw [UInt16.lt_iff_toNat_lt, asU16_toNat] at h
    refine ⟨.inr rfl, fun e => .inl ?_, fun o => ?_⟩
    · have := congrArg List.length e
      rw [List.length_take] at this
      omega
    · rw [List.take_of_length_le (o.resolve_right h)]

/-- The limit of 65536 bytes in C12 is needed: a configuration descriptor of exactly 65536 bytes
is returned whole to a host that asked for 9 bytes. -/
theorem C12_limit_needed : ∃ d : Device, ∀ p, ∃ bs,
    DescriptorReply p d (getDescriptorSetup 2 0 0 9) (.ok bs) ∧ bs.length = 65536 := by
  let d : Device := { devA with interfaces := [{ intf1 with
    endpoints := [], classSpecificDescriptor := List.replicate 65518 1 }] }
  have hl : d.configDescriptor.length = 65536 := by
    rw [configDescriptor_length]
    simp only [d, ifaceDescriptors, Iface.descriptor, List.length_append, List.length_replicate,
      List.length_cons, List.length_nil, List.flatMap_nil]
  refine ⟨d, fun p => ⟨d.configDescriptor, (descriptorReply_iff p d _ rfl rfl _).mpr ?_, hl⟩⟩
  unfold Device.getDescriptor
  simp only [getDescriptorSetup, setup_value_hi]
  have : DescriptorType.fromU16 (UInt8.toUInt16 2) = some .configuration := by decide
  rw [this]
  simp only
  rw [clip_zero_len _ _ hl]

/-- A device descriptor request for 8 bytes (what a host sends first). -/
example : devA.handleUrb env dev devA.ep0In none 8 (getDescriptorSetup 1 0 0 8) [] world =
    (.ok [18, 1, 0, 0, 0, 0, 0, 64], world) := by
  rw [handleUrb_get _ _ _ _ _ _ _ _ _ rfl (by decide) rfl rfl]
  rfl

/-! ## C56 -/

/-- C56: the device, device qualifier and BOS descriptors are the ones USB 2.0 prescribes for the
device's fields. -/
theorem C56_identity {σ} (env : Env σ) (p : Profile) (d : Device) (ep : Endpoint)
    (intf : Option Iface) (len : UInt32) (data : Bytes) (w : World σ) (index : UInt8)
    (lang wLength : UInt16) (ha : ep.attributes = 0) (hd : 128 ≤ ep.address.toNat) :
    d.handleUrb env p ep intf len (getDescriptorSetup 1 index lang wLength) data w
      = (.ok ((deviceBlock d).take wLength.toNat), w) ∧
    d.handleUrb env p ep intf len (getDescriptorSetup 6 index lang wLength) data w
      = (.ok ((qualifierBlock d).take wLength.toNat), w) ∧
    d.handleUrb env p ep intf len (getDescriptorSetup 15 index lang wLength) data w
      = (.ok (bosBlock.take wLength.toNat), w) := by
  have e1 : d.deviceDescriptor = deviceBlock d := by
    simp only [Device.deviceDescriptor, deviceBlock, ← lo_hi]
    have : UInt8.ofNat d.ep0In.maxPacketSize.toNat = d.ep0In.maxPacketSize.toUInt8 := by
      apply u8_ext; simp
    rw [this]; rfl
  have e2 : d.qualifierDescriptor = qualifierBlock d := by
    simp only [Device.qualifierDescriptor, qualifierBlock]
    have : UInt8.ofNat d.ep0In.maxPacketSize.toNat = d.ep0In.maxPacketSize.toUInt8 := by
      apply u8_ext; simp
    rw [this]; rfl
  have e3 : bosDescriptor = bosBlock := by decide
  rw [handleUrb_get _ _ _ _ _ _ _ _ _ ha hd rfl rfl, handleUrb_get _ _ _ _ _ _ _ _ _ ha hd rfl rfl,
    handleUrb_get _ _ _ _ _ _ _ _ _ ha hd rfl rfl]
  simp only [Device.getDescriptor, getDescriptorSetup, setup_value_hi]
  have t1 : DescriptorType.fromU16 (UInt8.toUInt16 1) = some .device := by decide
  have t2 : DescriptorType.fromU16 (UInt8.toUInt16 6) = some .deviceQualifier := by decide
  have t3 : DescriptorType.fromU16 (UInt8.toUInt16 15) = some .bos := by decide
  rw [t1, t2, t3]
  simp only
  rw [clip_take _ _ (by simp [Device.deviceDescriptor]), clip_take _ _ (by simp [Device.qualifierDescriptor]),
    clip_take _ _ (by decide), e1, e2, e3]
  exact ⟨rfl, rfl, rfl⟩

example : deviceBlock devA = [18, 1, 0, 0, 0, 0, 0, 64, 0x34, 0x12, 0xCD, 0xAB, 0, 2, 1, 0, 0, 1] := by
  decide

/-! ## C13 -/

/-- The device's full configuration descriptor, as a host reads it. -/
def ConfigReply (d : Device) (bs : Bytes) : Prop :=
  ∀ p, DescriptorReply p d (getDescriptorSetup 2 0 0 0xFFFF) (.ok bs)

theorem configReply_eq {d : Device} {bs : Bytes} (h : ConfigReply d bs) :
    ∀ p, d.getDescriptor p (getDescriptorSetup 2 0 0 0xFFFF) = .ok bs :=
  fun p => (descriptorReply_iff p d _ rfl rfl _).mp (h p)

theorem configReply_of {d : Device} {bs : Bytes}
    (h : ∀ p, d.getDescriptor p (getDescriptorSetup 2 0 0 0xFFFF) = .ok bs) : ConfigReply d bs :=
  fun p => (descriptorReply_iff p d _ rfl rfl _).mpr (h p)

/-- C13: the configuration descriptor announces its own length, passes `verify_descriptor`, and
walks as one configuration header announcing the number of interfaces followed, per interface, by
its descriptor announcing its number of endpoints, its class specific blocks and exactly its
endpoint descriptors. -/
theorem C13_configuration (d : Device) (bs : Bytes) (h : ConfigReply d bs)
    (hlen : bs.length < 65536)
    (hi : d.interfaces.length ≤ 255) (he : ∀ f ∈ d.interfaces, f.endpoints.length ≤ 255)
    (hc : ∀ f ∈ d.interfaces, (walk f.classSpecificDescriptor).isSome) :
    walk bs = some (configBlock d bs.length :: allBlocks 0 d.interfaces) ∧
    verifyDescriptor bs = .ok () ∧
    (bs.drop 2).take 2 = le bs.length ∧
    (bs[4]?.map UInt8.toNat) = some d.interfaces.length ∧
    (∀ i, ∀ f ∈ d.interfaces, ((interfaceBlock i f)[4]?.map UInt8.toNat) = some f.endpoints.length) := by
  have hb : bs = d.configDescriptor := by
    have := configReply_eq h dev
    simp only [Device.getDescriptor, getDescriptorSetup, setup_value_hi] at this
    rw [show DescriptorType.fromU16 (UInt8.toUInt16 2) = some .configuration by decide] at this
    simp only [clip_full, Outcome.ok.injEq] at this
    exact this.symm
  have heq := configDescriptor_eq d (hb ▸ hlen)
  rw [← hb] at heq
  have hblk : ∀ b ∈ configBlock d bs.length :: allBlocks 0 d.interfaces, IsBlock b := by
    intro b hm
    rcases List.mem_cons.mp hm with rfl | hm
    · exact ⟨_, _, rfl, rfl⟩
    · exact allBlocks_isBlock _ _ hc b hm
  have hfl : bs = (configBlock d bs.length :: allBlocks 0 d.interfaces).flatten := by
    rw [List.flatten_cons, ← ifaceDescriptors_flatten _ _ hc]; exact heq
  refine ⟨?_, ?_, ?_, ?_, ?_⟩
  · conv => lhs; rw [hfl]
    exact walk_flatten _ hblk
  · rw [hfl]; exact verify_ok _ hblk
  · conv => lhs; rw [heq]
    simp [configBlock, le]
  · rw [heq]
    simp [configBlock, le]
    omega
  · intro i f hf
    have := he f hf
    simp [interfaceBlock]
    omega

/-- C13, beyond: the configuration descriptor of any device, however large, announces its own length and the number of
interfaces exactly when these fit the fields (two bytes and one byte); otherwise the fields hold something else. -/
theorem C13_limits (d : Device) (bs : Bytes) (h : ConfigReply d bs) :
    ∃ lo hi n rest, bs = 9 :: 2 :: lo :: hi :: n :: rest ∧
      (lo.toNat + 256 * hi.toNat = bs.length ↔ bs.length < 65536) ∧
      (n.toNat = d.interfaces.length ↔ d.interfaces.length < 256) := by
  have hb : d.configDescriptor = bs := by
    have := configReply_eq h dev
    simp only [Device.getDescriptor, getDescriptorSetup, setup_value_hi] at this
    rw [show DescriptorType.fromU16 (UInt8.toUInt16 2) = some .configuration by decide] at this
    simpa only [clip_full, Outcome.ok.injEq] using this
  have hl := configDescriptor_length d
  rw [← hb]
  refine ⟨(asU16 d.configDescriptor.length).toUInt8, (asU16 d.configDescriptor.length >>> 8).toUInt8,
    asU8 d.interfaces.length, _, by rw [hl]; rfl, ?_, ?_⟩
  · have h1 := asU16_toNat d.configDescriptor.length
    have h2 : (asU16 d.configDescriptor.length).toUInt8.toNat
        + 256 * (asU16 d.configDescriptor.length >>> 8).toUInt8.toNat = (asU16 d.configDescriptor.length).toNat := by
      generalize asU16 d.configDescriptor.length = v
      have hv := v.toNat_lt
      have : (v >>> 8).toNat = v.toNat / 256 := by
        rw [UInt16.toNat_shiftRight, Nat.shiftRight_eq_div_pow]; rfl
      rw [UInt16.toNat_toUInt8, UInt16.toNat_toUInt8, this]
      omega
    rw [h2, h1]
    omega
  · have : (asU8 d.interfaces.length).toNat = d.interfaces.length % 256 := by simp [asU8]
    rw [this]
    omega

/-- A device with 256 interfaces says that it has none. -/
example : ({ devA with interfaces := List.replicate 256 ⟨3, 0, 0, [], 0, [], 0⟩ } : Device).configDescriptor.take 5
    = [9, 2, 9, 9, 0] := by decide +kernel

/-- The sample device meets the hypotheses. -/
example : (∃ bs, ConfigReply devA bs ∧ bs.length < 65536) ∧ devA.interfaces.length ≤ 255 ∧
    (∀ f ∈ devA.interfaces, f.endpoints.length ≤ 255) ∧
    (∀ f ∈ devA.interfaces, (walk f.classSpecificDescriptor).isSome) := by
  refine ⟨⟨devA.configDescriptor, ?_, by decide⟩, by decide, by decide, ?_⟩
  · intro p
    rw [descriptorReply_iff p devA _ rfl rfl]
    simp only [Device.getDescriptor, getDescriptorSetup, setup_value_hi]
    rw [show DescriptorType.fromU16 (UInt8.toUInt16 2) = some .configuration by decide]
    simp only [clip_full]
  · intro f hf
    simp only [devA, List.mem_cons, List.not_mem_nil, or_false] at hf
    rcases hf with rfl | rfl
    · have : intf0.classSpecificDescriptor = [[3, 0x21, 7]].flatten := rfl
      rw [this, walk_flatten]; rfl
      intro b hb
      simp only [List.mem_singleton] at hb
      subst hb
      exact ⟨_, _, rfl, rfl⟩
    · rw [show intf1.classSpecificDescriptor = [] from rfl, walk_nil]; rfl

/-! ## C14 -/

/-- C14: for a stored string of at most 126 UTF-16 units, the descriptor returned for its index
(asked for with wLength 0xFFFF, or any wLength of at least its length) announces its own length
and decodes to exactly the stored text. -/
theorem C14_string {σ} (env : Env σ) (p : Profile) (d : Device) (ep : Endpoint)
    (intf : Option Iface) (len : UInt32) (data : Bytes) (w : World σ) (index : UInt8)
    (lang wLength : UInt16) (s : Str) (ha : ep.attributes = 0) (hd : 128 ≤ ep.address.toNat)
    (h0 : index ≠ 0) (hs : d.stringPool index = some s) (hu : units s ≤ 126)
    (hw : 2 + 2 * units s ≤ wLength.toNat) :
    ∃ bs, d.handleUrb env p ep intf len (getDescriptorSetup 3 index lang wLength) data w = (.ok bs, w) ∧
      bs.length = 2 + 2 * units s ∧ bs.length ≤ 254 ∧
      decodeStringDescriptor bs = some (s.map Char.toNat) := by
  rw [handleUrb_get _ _ _ _ _ _ _ _ _ ha hd rfl rfl]
  simp only [Device.getDescriptor, getDescriptorSetup, setup_value_hi, setup_value_lo]
  rw [show DescriptorType.fromU16 (UInt8.toUInt16 3) = some .string by decide]
  simp only [h0, if_false, hs, stringDescriptor_ok p s hu, Outcome.bind_ok]
  have hl : ([UInt8.ofNat (2 + 2 * units s), 3] ++
      (utf16 s).flatMap (fun (u : UInt16) => [u.toUInt8, (u >>> 8).toUInt8])).length
      = 2 + 2 * units s := by
    rw [List.length_append, stringDescriptor_length, utf16_length]; rfl
  refine ⟨_, rfl, ?_⟩
  rw [clip_take _ _ (by omega), List.take_of_length_le (by omega)]
  refine ⟨hl, by omega, ?_⟩
  simp only [List.cons_append, List.nil_append] at hl ⊢
  rw [decodeStringDescriptor]
  rw [if_pos]
  · rw [unitsOfBytes_le, Option.bind_some, decodeUtf16_utf16]
  · refine ⟨?_, rfl⟩
    rw [hl, UInt8.toNat_ofNat']
    omega

/-- C14: the string descriptor with index 0 lists the single language id 0x0409. -/
theorem C14_languages (p : Profile) (d : Device) (lang wLength : UInt16) :
    DescriptorReply p d (getDescriptorSetup 3 0 lang wLength) (.ok ([4, 3, 0x09, 0x04].take wLength.toNat)) := by
  rw [descriptorReply_iff p d _ rfl rfl]
  simp only [Device.getDescriptor, getDescriptorSetup, setup_value_hi, setup_value_lo]
  rw [show DescriptorType.fromU16 (UInt8.toUInt16 3) = some .string by decide]
  simp only [if_true]
  rw [clip_take _ _ (by decide)]
  rfl

/-- C14: the limit of 126 units is real.  From 127 units on, asking for the whole descriptor crashes
the device (in builds with overflow checks, unless the unit count is small modulo 256) or is answered
with bytes that are not a string descriptor: bLength is not their length. -/
theorem C14_limit (p : Profile) (d : Device) (index : UInt8) (lang : UInt16) (s : Str)
    (h0 : index ≠ 0) (hs : d.stringPool index = some s) (h : 127 ≤ units s) :
    DescriptorReply p d (getDescriptorSetup 3 index lang 0xFFFF) .panic ∨
    ∃ bs, DescriptorReply p d (getDescriptorSetup 3 index lang 0xFFFF) (.ok bs) ∧
      decodeStringDescriptor bs = none := by
  have hg : d.getDescriptor p (getDescriptorSetup 3 index lang 0xFFFF) = stringDescriptor p s := by
    simp only [Device.getDescriptor, getDescriptorSetup, setup_value_hi, setup_value_lo]
    rw [show DescriptorType.fromU16 (UInt8.toUInt16 3) = some .string by decide]
    simp only [h0, if_false, hs, clip_full]
    rcases stringDescriptor_total p s with hp | ⟨bs, hbs⟩
    · rw [hp]; rfl
    · rw [hbs]; rfl
  simp only [descriptorReply_iff p d (getDescriptorSetup 3 index lang 0xFFFF) rfl rfl, hg]
  rcases stringDescriptor_total p s with hp | ⟨bs, hbs⟩
  · exact Or.inl hp
  · right
    refine ⟨bs, hbs, ?_⟩
    have hl : 256 ≤ bs.length ∧ ∃ n t rest, bs = n :: t :: rest := by
      simp only [stringDescriptor, Outcome.bind_eq_ok] at hbs
      obtain ⟨_, _, _, _, h⟩ := hbs
      simp only [Outcome.pure_eq, Outcome.ok.injEq] at h
      subst h
      refine ⟨?_, _, _, _, rfl⟩
      rw [List.length_append, stringDescriptor_length, utf16_length]
      simp; omega
    obtain ⟨h1, n, t, rest, rfl⟩ := hl
    rw [decodeStringDescriptor, if_neg]
    have := u8_lt n
    omega

/-- A text of 127 units. -/
example : 127 ≤ units (List.replicate 127 'x') ∧
    (poolInsert devA.stringPool 9 (List.replicate 127 'x')) 9 = some (List.replicate 127 'x') := by
  refine ⟨by decide +kernel, rfl⟩

/-- "é😀": one unit plus a surrogate pair. -/
example : devA.stringPool 1 = some ['é', '😀'] ∧ units ['é', '😀'] = 3 ∧
    stringDescriptor dev ['é', '😀'] = .ok [8, 3, 0xE9, 0, 0x3D, 0xD8, 0x00, 0xDE] := by
  refine ⟨rfl, by decide, by decide⟩

/-! ## C44 -/

/-- C44: `verify_descriptor` returns normally exactly on concatenations of blocks that start with
their own (necessarily non-zero) length. -/
theorem C44_accepts (bs : Bytes) :
    verifyDescriptor bs = .ok () ↔
    ∃ blocks : List Bytes, bs = blocks.flatten ∧
      ∀ b ∈ blocks, ∃ n rest, b = n :: rest ∧ n.toNat = rest.length + 1 := by
  constructor
  · intro h
    obtain ⟨bls, tail, rfl, hb, ht⟩ := blocks_tail bs
    rcases ht with rfl | ⟨rest, rfl⟩ | ⟨n, rest, rfl, hn⟩
    · refine ⟨bls, by simp, fun b hm => ?_⟩
      obtain ⟨n, rest, rfl, hl⟩ := hb b hm
      exact ⟨n, rest, rfl, by simpa using hl⟩
    · rw [verify_zero _ _ hb] at h; simp at h
    · rw [verify_over _ _ _ hb hn] at h; simp at h
  · rintro ⟨bls, rfl, hb⟩
    apply verify_ok
    intro b hm
    obtain ⟨n, rest, rfl, hl⟩ := hb b hm
    exact ⟨n, rest, rfl, by simpa using hl⟩

/-- C44: it never returns exactly when a zero length byte is reached at a block boundary. -/
theorem C44_diverges (bs : Bytes) :
    verifyDescriptor bs = .diverge ↔
    ∃ (blocks : List Bytes) (rest : Bytes), bs = blocks.flatten ++ 0 :: rest ∧
      ∀ b ∈ blocks, ∃ n rest, b = n :: rest ∧ n.toNat = rest.length + 1 := by
  constructor
  · intro h
    obtain ⟨bls, tail, rfl, hb, ht⟩ := blocks_tail bs
    rcases ht with rfl | ⟨rest, rfl⟩ | ⟨n, rest, rfl, hn⟩
    · rw [List.append_nil, verify_ok _ hb] at h; simp at h
    · refine ⟨bls, rest, rfl, fun b hm => ?_⟩
      obtain ⟨n, rest, rfl, hl⟩ := hb b hm
      exact ⟨n, rest, rfl, by simpa using hl⟩
    · rw [verify_over _ _ _ hb hn] at h; simp at h
  · rintro ⟨bls, rest, rfl, hb⟩
    apply verify_zero
    intro b hm
    obtain ⟨n, rest, rfl, hl⟩ := hb b hm
    exact ⟨n, rest, rfl, by simpa using hl⟩

/-- C44: otherwise it panics: a block announces more bytes than are left. -/
theorem C44_panics (bs : Bytes) :
    verifyDescriptor bs = .panic ↔
    ∃ (blocks : List Bytes) (n : UInt8) (rest : Bytes), bs = blocks.flatten ++ n :: rest ∧
      rest.length + 1 < n.toNat ∧
      ∀ b ∈ blocks, ∃ n rest, b = n :: rest ∧ n.toNat = rest.length + 1 := by
  constructor
  · intro h
    obtain ⟨bls, tail, rfl, hb, ht⟩ := blocks_tail bs
    rcases ht with rfl | ⟨rest, rfl⟩ | ⟨n, rest, rfl, hn⟩
    · rw [List.append_nil, verify_ok _ hb] at h; simp at h
    · rw [verify_zero _ _ hb] at h; simp at h
    · refine ⟨bls, n, rest, rfl, hn, fun b hm => ?_⟩
      obtain ⟨n, rest, rfl, hl⟩ := hb b hm
      exact ⟨n, rest, rfl, by simpa using hl⟩
  · rintro ⟨bls, n, rest, rfl, hn, hb⟩
    apply verify_over _ _ _ _ hn
    intro b hm
    obtain ⟨n, rest, rfl, hl⟩ := hb b hm
    exact ⟨n, rest, rfl, by simpa using hl⟩

/-- C44: these are the only outcomes. -/
theorem C44_total (bs : Bytes) :
    verifyDescriptor bs = .ok () ∨ verifyDescriptor bs = .diverge ∨ verifyDescriptor bs = .panic := by
  obtain ⟨bls, tail, rfl, hb, ht⟩ := blocks_tail bs
  rcases ht with rfl | ⟨rest, rfl⟩ | ⟨n, rest, rfl, hn⟩
  · left; rw [List.append_nil, verify_ok _ hb]
  · right; left; exact verify_zero _ _ hb
  · right; right; exact verify_over _ _ _ hb hn

example : verifyDescriptor [2, 9, 3, 1, 1] = .ok () ∧ verifyDescriptor [2, 9, 0, 1] = .diverge ∧
    verifyDescriptor [2, 9, 4, 1, 1] = .panic := by
  refine ⟨?_, ?_, ?_⟩
  · exact (C44_accepts _).mpr ⟨[[2, 9], [3, 1, 1]], rfl, by
      simp only [List.mem_cons, List.not_mem_nil, or_false]
      rintro b (rfl | rfl)
      · exact ⟨_, _, rfl, rfl⟩
      · exact ⟨_, _, rfl, rfl⟩⟩
  · exact (C44_diverges _).mpr ⟨[[2, 9]], [1], rfl, by
      simp only [List.mem_singleton]
      rintro b rfl
      exact ⟨_, _, rfl, rfl⟩⟩
  · exact (C44_panics _).mpr ⟨[[2, 9]], 4, [1, 1], rfl, by decide, by
      simp only [List.mem_singleton]
      rintro b rfl
      exact ⟨_, _, rfl, rfl⟩⟩

/-! ## C45 -/

theorem version_fields (v : UInt16) : (Version.ofU16 v).major.toNat = v.toNat / 256 ∧
    (Version.ofU16 v).minor.toNat = v.toNat / 16 % 16 ∧
    (Version.ofU16 v).patch.toNat = v.toNat % 16 := by
  have := u16_lt v
  have h15 : ∀ n : Nat, n &&& 15 = n % 16 := fun n => Nat.and_two_pow_sub_one_eq_mod n 4
  simp only [Version.ofU16]
  refine ⟨?_, ?_, ?_⟩
  · rw [UInt16.toNat_toUInt8, UInt16.toNat_shiftRight, show (8 : UInt16).toNat % 16 = 8 from rfl,
      Nat.shiftRight_eq_div_pow]
    omega
  · rw [UInt16.toNat_toUInt8, UInt16.toNat_and, UInt16.toNat_shiftRight,
      show (4 : UInt16).toNat % 16 = 4 from rfl, show (0xF : UInt16).toNat = 15 from rfl,
      Nat.shiftRight_eq_div_pow, h15]
    omega
  · rw [UInt16.toNat_toUInt8, UInt16.toNat_and, show (0xF : UInt16).toNat = 15 from rfl, h15]
    omega

/-- C45 (partial: only for versions with a zero low byte): the bcdDevice in the exported record
and in the device descriptor a client is sent, for a device whose version was made from the 16-bit BCD
version `v`, equals `v` exactly when the low byte of `v` is zero. -/
theorem C45_version_partial (p : Profile) (d : Device) (v : UInt16) (bs : Bytes)
    (hv : d.deviceBcd = Version.ofU16 v) (h : d.toBytes p = .ok bs) :
    ((readDevInfo bs).bcdDevice = v.toNat ↔ v.toNat % 256 = 0) ∧
    ∃ desc, DescriptorReply p d (getDescriptorSetup 1 0 0 18) (.ok desc) ∧
      ((desc.drop 12).take 2 = le v.toNat ↔ v.toNat % 256 = 0) ∧
      (desc.drop 12).take 2 = le ((readDevInfo bs).bcdDevice) := by
  rw [toBytes_inv h, readDevInfo_record]
  obtain ⟨h1, h2, _⟩ := version_fields v
  have hlt := u16_lt v
  have key : (256 * (Version.ofU16 v).major.toNat + (Version.ofU16 v).minor.toNat = v.toNat ↔
      v.toNat % 256 = 0) := by
    simp only [h1, h2]
    have e1 : v.toNat = v.toNat / 256 * 256 + v.toNat % 256 := by omega
    have e2 : v.toNat % 256 = 16 * (v.toNat / 16 % 16) + v.toNat % 16 := by omega
    generalize v.toNat / 16 % 16 = x at *
    omega
  have e3 : ((deviceBlock d).drop 12).take 2 = le (devInfo d).bcdDevice := by
    simp only [devInfo, deviceBlock, le, hv]
    simp only [List.cons_append, List.nil_append, List.drop_succ_cons, List.drop_zero,
      List.take_succ_cons, List.take_zero, List.cons.injEq, and_true]
    constructor <;> apply u8_ext <;> simp only [UInt8.toNat_ofNat', h1, h2] <;> omega
  have e4 : (devInfo d).bcdDevice = 256 * (Version.ofU16 v).major.toNat + (Version.ofU16 v).minor.toNat := by
    simp only [devInfo, hv]
    try omega
  refine ⟨by rw [e4]; exact key, deviceBlock d, ?_, ?_, e3⟩
  · intro σ env ep intf len data w ha hd
    have := (C56_identity env p d ep intf len data w 0 0 18 (u8_ext (by simpa using ha)) hd).1
    rw [this]
    rfl
  · rw [e3, ← key, e4]
    constructor
    · intro hh
      have hm : (Version.ofU16 v).major.toNat < 256 := UInt8.toNat_lt _
      have hn : (Version.ofU16 v).minor.toNat < 256 := UInt8.toNat_lt _
      simp only [le, List.cons.injEq, and_true] at hh
      have a1 := congrArg UInt8.toNat hh.1
      have a2 := congrArg UInt8.toNat hh.2
      simp only [UInt8.toNat_ofNat'] at a1 a2
      omega
    · intro hh; rw [hh]

/-- C45 fails for version 2.10 (0x0210): the client is told 0x0201. -/
theorem C45_fails : ∃ bs, ({ devA with deviceBcd := Version.ofU16 0x0210 } : Device).toBytes dev
    = .ok bs ∧ (readDevInfo bs).bcdDevice = 0x0201 := by
  refine ⟨_, toBytes_ok dev _ (by decide), ?_⟩
  rw [readDevInfo_record]
  decide

example : Version.ofU16 0x0200 = ⟨2, 0, 0⟩ := by decide

end Usbip
