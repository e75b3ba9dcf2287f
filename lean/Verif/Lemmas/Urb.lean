import Verif.Lemmas.Descriptor
import Verif.Spec.Dispatch
/-! Helper lemmas about `handleUrb`. -/

namespace Usbip
open Spec

/-- Who is poisoned after the application has used handlers. -/
theorem crashed_used {σ} (w : World σ) (f : σ → σ) (crash : Option HandlerId) (k : HandlerId) :
    crashed (w.used f crash) k = true ↔ crashed w k = true ∨ crash = some k := by
  cases crash with
  | none => cases k <;> simp [World.used, crashed]
  | some h =>
    cases h <;> cases k <;> simp only [World.used, World.poison, crashed, Option.some.injEq, reduceCtorEq, or_false,
      HandlerId.iface.injEq, HandlerId.dev.injEq]
    all_goals
      rename_i a b
      by_cases e : b = a
      · simp [e]
      · simp [e, Ne.symm e]

theorem used_user {σ} (w : World σ) (f : σ → σ) (crash : Option HandlerId) : (w.used f crash).user = f w.user := by
  cases crash with
  | none => rfl
  | some h => cases h <;> rfl

theorem ofNat_toNat8 (a : UInt8) : UInt8.ofNat a.toNat = a := by
  apply u8_ext; simp

set_option maxRecDepth 100000 in
theorem and80 (a : UInt8) : a &&& 0x80 ≠ 0 ↔ 128 ≤ a.toNat := by
  have h : ∀ n, n < 256 → (UInt8.ofNat n &&& 0x80 ≠ 0 ↔ 128 ≤ n) := by decide
  have := h a.toNat (u8_lt a)
  rwa [ofNat_toNat8] at this

theorem direction_in (e : Endpoint) : e.direction = .in ↔ 128 ≤ e.address.toNat := by
  unfold Endpoint.direction
  by_cases h : e.address &&& 0x80 ≠ 0
  · rw [if_pos h]; simp [(and80 _).mp h]
  · rw [if_neg h]
    have := mt (and80 _).mpr h
    simp; omega

theorem direction_out (e : Endpoint) : e.direction = .out ↔ e.address.toNat < 128 := by
  have := direction_in e
  cases h : e.direction <;> simp_all

theorem fromU8_control : EndpointAttributes.fromU8 0 = some .control := by decide
theorem req6 : StandardRequest.fromU8 6 = some .getDescriptor := by decide
theorem req9 : StandardRequest.fromU8 9 = some .setConfiguration := by decide

theorem req_get (n : UInt8) : StandardRequest.fromU8 n = some .getDescriptor ↔ n = 6 := by
  unfold StandardRequest.fromU8
  constructor
  · intro h
    repeat' split at h
    all_goals first | assumption | simp at h
  · rintro rfl; decide

theorem req_setcfg (n : UInt8) : StandardRequest.fromU8 n = some .setConfiguration ↔ n = 9 := by
  unfold StandardRequest.fromU8
  constructor
  · intro h
    repeat' split at h
    all_goals first | assumption | simp at h
  · rintro rfl; decide

theorem attr_none (n : UInt8) : EndpointAttributes.fromU8 n = none ↔ 3 < n.toNat := by
  have h : ∀ k : UInt8, n = k ↔ n.toNat = k.toNat := fun k => UInt8.toNat_inj.symm
  unfold EndpointAttributes.fromU8
  simp only [h]
  have e0 : (0 : UInt8).toNat = 0 := rfl
  have e1 : (1 : UInt8).toNat = 1 := rfl
  have e2 : (2 : UInt8).toNat = 2 := rfl
  have e3 : (3 : UInt8).toNat = 3 := rfl
  rw [e0, e1, e2, e3]
  repeat' split
  all_goals simp
  all_goals omega

theorem attr_control (n : UInt8) : EndpointAttributes.fromU8 n = some .control ↔ n = 0 := by
  unfold EndpointAttributes.fromU8
  constructor
  · intro h
    repeat' split at h
    all_goals first | assumption | simp at h
  · rintro rfl; decide

theorem handleUrb_get {σ} (env : Env σ) (p : Profile) (d : Device) (ep : Endpoint)
    (intf : Option Iface) (len : UInt32) (setup : SetupPacket) (data : Bytes) (w : World σ)
    (ha : ep.attributes = 0) (hd : 128 ≤ ep.address.toNat) (h1 : setup.requestType = 0x80)
    (h2 : setup.request = 6) :
    d.handleUrb env p ep intf len setup data w = (d.getDescriptor p setup, w) := by
  simp only [Device.handleUrb, ha, fromU8_control, (direction_in ep).mpr hd, h1, h2, req6]
  simp

theorem setup_value_hi (t i : UInt8) :
    UInt16.ofNat (t.toNat * 256 + i.toNat) >>> 8 = t.toUInt16 := by
  have := u8_lt t
  have := u8_lt i
  apply u16_ext
  rw [UInt16.toNat_shiftRight, UInt16.toNat_ofNat', UInt8.toNat_toUInt16,
    show (8 : UInt16).toNat % 16 = 8 from rfl, Nat.shiftRight_eq_div_pow]
  omega

theorem setup_value_lo (t i : UInt8) :
    (UInt16.ofNat (t.toNat * 256 + i.toNat)).toUInt8 = i := by
  have := u8_lt i
  apply u8_ext
  rw [UInt16.toNat_toUInt8, UInt16.toNat_ofNat']
  omega

/-- Descriptor replies are clipped versions of the reply for wLength 0xFFFF. -/
theorem getDescriptor_clip (p : Profile) (d : Device) (setup : SetupPacket) (f : Bytes)
    (h : d.getDescriptor p { setup with length := 65535 } = .ok f) :
    d.getDescriptor p setup = .ok (clip f setup.length) := by
  have hnil : clip [] setup.length = [] := by
    unfold clip
    rw [if_neg]
    rw [UInt16.lt_iff_toNat_lt]
    simp [asU16]
  unfold Device.getDescriptor at h ⊢
  split at h
  all_goals rename_i hty
  all_goals simp only [clip_full, Outcome.ok.injEq] at h
  all_goals dsimp only at hty
  · subst h; simp only [hty]
  · subst h; simp only [hty]
  · subst h; simp only [hty]
  · simp only [hty]
    split at h
    · rename_i h0
      simp only [Outcome.ok.injEq] at h
      subst h
      rw [if_pos h0]
    · rename_i h0
      rw [if_neg h0]
      split at h
      · rename_i s hs
        rw [Outcome.bind_eq_ok] at h
        obtain ⟨a, ha, hb⟩ := h
        simp only [Outcome.pure_eq, Outcome.ok.injEq] at hb
        subst hb
        rw [ha]; rfl
      · simp at h
  · subst h; simp only [hty]
  · subst h
    rw [hnil]

/-! ### Dispatch -/

theorem u8_eq_iff (a b : UInt8) : a = b ↔ a.toNat = b.toNat := UInt8.toNat_inj.symm

theorem and_f (a : UInt8) : (a &&& 0xF).toNat = a.toNat % 16 := by
  rw [UInt8.toNat_and, show (0xF : UInt8).toNat = 15 from rfl]
  exact Nat.and_two_pow_sub_one_eq_mod _ 4

theorem and_f_one (a : UInt8) : a &&& 0xF = 1 ↔ a.toNat % 16 = 1 := by
  rw [u8_eq_iff, and_f]; rfl

theorem and_f_zero (a : UInt8) : a &&& 0xF = 0 ↔ a.toNat % 16 = 0 := by
  rw [u8_eq_iff, and_f]; rfl

theorem and_ff (n : Nat) : n &&& 0xFF = n % 256 := Nat.and_two_pow_sub_one_eq_mod n 8

theorem attr_some (n : UInt8) (h0 : n.toNat ≠ 0) (h3 : n.toNat ≤ 3) :
    ∃ a, EndpointAttributes.fromU8 n = some a ∧ a ≠ .control := by
  cases h : EndpointAttributes.fromU8 n with
  | none => exact absurd ((attr_none n).mp h) (by omega)
  | some a =>
    refine ⟨a, rfl, ?_⟩
    rintro rfl
    rw [attr_control] at h
    subst h
    simp at h0

/-- `handleUrb` on a control endpoint, other than the two standard requests. -/
theorem handleUrb_control {σ} (env : Env σ) (p : Profile) (d : Device) (ep : Endpoint)
    (intf : Option Iface) (len : UInt32) (setup : SetupPacket) (data : Bytes) (w : World σ)
    (ha : ep.attributes.toNat = 0) (hs : ¬ standard ep setup) :
    d.handleUrb env p ep intf len setup data w = d.controlOther env ep len setup data w := by
  have ha' : ep.attributes = 0 := by rw [u8_eq_iff]; exact ha
  simp only [standard, not_or, not_and] at hs
  obtain ⟨h1, h2⟩ := hs
  by_cases hd : 128 ≤ ep.address.toNat
  · simp only [Device.handleUrb, ha', fromU8_control, (direction_in ep).mpr hd, req_get]
    rw [if_neg]
    rintro ⟨ha, hb⟩
    exact h1 hd (by rw [ha]; rfl) (by rw [hb]; rfl)
  · have hd' : ep.address.toNat < 128 := by omega
    simp only [Device.handleUrb, ha', fromU8_control, (direction_out ep).mpr hd', req_setcfg]
    rw [if_neg]
    rintro ⟨ha, hb⟩
    exact h2 hd' (by rw [ha]; rfl) (by rw [hb]; rfl)

/-- `handleUrb` for the two standard requests. -/
theorem handleUrb_standard {σ} (env : Env σ) (p : Profile) (d : Device) (ep : Endpoint)
    (intf : Option Iface) (len : UInt32) (setup : SetupPacket) (data : Bytes) (w : World σ)
    (ha : ep.attributes.toNat = 0) (hs : standard ep setup) :
    d.handleUrb env p ep intf len setup data w =
      (if 128 ≤ ep.address.toNat then d.getDescriptor p setup
       else .ok (clip [d.configurationValue] setup.length), w) := by
  have ha' : ep.attributes = 0 := by rw [u8_eq_iff]; exact ha
  rcases hs with ⟨h1, h2, h3⟩ | ⟨h1, h2, h3⟩
  · rw [handleUrb_get env p d ep intf len setup data w ha' h1 (by rw [u8_eq_iff]; exact h2)
      (by rw [u8_eq_iff]; exact h3), if_pos h1]
  · rw [if_neg (by omega)]
    simp only [Device.handleUrb, ha', fromU8_control, (direction_out ep).mpr h1, req_setcfg]
    rw [if_pos]
    exact ⟨by rw [u8_eq_iff]; exact h2, by rw [u8_eq_iff]; exact h3⟩

/-- `handleUrb` on other endpoints. -/
theorem handleUrb_data {σ} (env : Env σ) (p : Profile) (d : Device) (ep : Endpoint)
    (intf : Option Iface) (len : UInt32) (setup : SetupPacket) (data : Bytes) (w : World σ)
    (h0 : ep.attributes.toNat ≠ 0) (h3 : ep.attributes.toNat ≤ 3) :
    d.handleUrb env p ep intf len setup data w =
      match intf with
      | some i => env.callIface i ep len setup data w
      | none => (.panic, w) := by
  obtain ⟨a, ha, hc⟩ := attr_some _ h0 h3
  unfold Device.handleUrb
  rw [ha]
  cases a <;> first | exact absurd rfl hc | rfl

theorem handleUrb_unknown {σ} (env : Env σ) (p : Profile) (d : Device) (ep : Endpoint)
    (intf : Option Iface) (len : UInt32) (setup : SetupPacket) (data : Bytes) (w : World σ)
    (h3 : ¬ ep.attributes.toNat ≤ 3) :
    d.handleUrb env p ep intf len setup data w = (.panic, w) := by
  unfold Device.handleUrb
  rw [(attr_none _).mpr (by omega)]

/-- Invoking a handler, by call description. -/
def Env.invoke {σ} (env : Env σ) (w : World σ) : HCall → Outcome Bytes × World σ
  | .iface h i e l s d => if w.ifPoisoned h then (.panic, w) else
      match (env.iface h i e l s d w.user).1 with
      | .panic => (.panic, { w with user := (env.iface h i e l s d w.user).2
                                    ifPoisoned := fun k => if k = h then true else w.ifPoisoned k })
      | r => (r.toOutcome, { w with user := (env.iface h i e l s d w.user).2 })
  | .dev h l s d => if w.devPoisoned h then (.panic, w) else
      match (env.dev h l s d w.user).1 with
      | .panic => (.panic, { w with user := (env.dev h l s d w.user).2
                                    devPoisoned := fun k => if k = h then true else w.devPoisoned k })
      | r => (r.toOutcome, { w with user := (env.dev h l s d w.user).2 })

theorem callIface_invoke {σ} (env : Env σ) (i : Iface) (ep : Endpoint) (len : UInt32)
    (setup : SetupPacket) (data : Bytes) (w : World σ) :
    env.callIface i ep len setup data w = env.invoke w (.iface i.handler i ep len setup data) := rfl

theorem callDev_invoke {σ} (env : Env σ) (h : Nat) (len : UInt32)
    (setup : SetupPacket) (data : Bytes) (w : World σ) :
    env.callDev h len setup data w = env.invoke w (.dev h len setup data) := rfl

/-- The whole of `handleUrb` in terms of the addressee. -/
theorem handleUrb_addressee {σ} (env : Env σ) (p : Profile) (d : Device) (ep : Endpoint)
    (intf : Option Iface) (len : UInt32) (setup : SetupPacket) (data : Bytes) (w : World σ) :
    d.handleUrb env p ep intf len setup data w =
      match addressee d ep intf len setup data with
      | some c => env.invoke w c
      | none =>
        if ep.attributes.toNat = 0 ∧ standard ep setup then
          (if 128 ≤ ep.address.toNat then d.getDescriptor p setup
           else .ok (clip [d.configurationValue] setup.length), w)
        else (.panic, w) := by
  unfold addressee
  by_cases h0 : ep.attributes.toNat = 0
  · rw [if_pos h0]
    by_cases hs : standard ep setup
    · rw [handleUrb_standard _ _ _ _ _ _ _ _ _ h0 hs, if_pos hs]
      simp only [h0, hs, and_self, if_true]
    · rw [handleUrb_control _ _ _ _ _ _ _ _ _ h0 hs, if_neg hs]
      have hn : ¬ (ep.attributes.toNat = 0 ∧ standard ep setup) := fun h => hs h.2
      simp only [if_neg hn]
      unfold Device.controlOther
      by_cases h1 : setup.requestType.toNat % 16 = 1
      · rw [if_pos ((and_f_one _).mpr h1), if_pos h1]
        unfold Device.controlToInterface
        rw [and_ff]
        cases d.interfaces[setup.index.toNat % 256]? with
        | none => rfl
        | some i => exact callIface_invoke ..
      · rw [if_neg (mt (and_f_one _).mp h1), if_neg h1]
        by_cases h2 : setup.requestType.toNat % 16 = 0
        · rw [if_pos h2]
          cases d.deviceHandler with
          | none => rfl
          | some h =>
            simp only [Option.map_some]
            rw [if_pos ((and_f_zero _).mpr h2)]
            exact callDev_invoke ..
        · rw [if_neg h2]
          cases d.deviceHandler with
          | none => rfl
          | some h =>
            simp only
            rw [if_neg (mt (and_f_zero _).mp h2)]
  · rw [if_neg h0]
    have hn : ¬ (ep.attributes.toNat = 0 ∧ standard ep setup) := fun h => h0 h.1
    by_cases h3 : ep.attributes.toNat ≤ 3
    · rw [if_pos h3, handleUrb_data _ _ _ _ _ _ _ _ _ h0 h3]
      cases intf with
      | none => simp only [Option.map_none, if_neg hn]
      | some i => exact callIface_invoke ..
    · rw [if_neg h3, handleUrb_unknown _ _ _ _ _ _ _ _ _ h3]
      simp only [if_neg hn]

theorem invoke_watch {σ} (env : Env σ) (w : World σ) (log : List HCall) (c : HCall) :
    (watch env).invoke (World.logged w log) c =
      if c.poisoned w then (.panic, World.logged w log)
      else ((c.answer env w.user).1.toOutcome, World.logged (env.invoke w c).2 (log ++ [c])) := by
  cases c with
  | iface h i e l s d =>
    simp only [Env.invoke, World.logged, watch, HCall.poisoned, HCall.answer]
    by_cases hp : w.ifPoisoned h = true
    · simp [hp]
    · simp only [hp]
      cases hr : (env.iface h i e l s d w.user).1 <;> simp [HRes.toOutcome]
  | dev h l s d =>
    simp only [Env.invoke, World.logged, watch, HCall.poisoned, HCall.answer]
    by_cases hp : w.devPoisoned h = true
    · simp [hp]
    · simp only [hp]
      cases hr : (env.dev h l s d w.user).1 <;> simp [HRes.toOutcome]

theorem invoke_eq {σ} (env : Env σ) (w : World σ) (c : HCall) :
    (env.invoke w c).1 = (if c.poisoned w then .panic else (c.answer env w.user).1.toOutcome) ∧
    (env.invoke w c).2.user = (if c.poisoned w then w.user else (c.answer env w.user).2) := by
  cases c with
  | iface h i e l s d =>
    simp only [Env.invoke, HCall.poisoned, HCall.answer]
    by_cases hp : w.ifPoisoned h = true
    · simp [hp]
    · simp only [hp]
      cases hr : (env.iface h i e l s d w.user).1 <;> simp [HRes.toOutcome]
  | dev h l s d =>
    simp only [Env.invoke, HCall.poisoned, HCall.answer]
    by_cases hp : w.devPoisoned h = true
    · simp [hp]
    · simp only [hp]
      cases hr : (env.dev h l s d w.user).1 <;> simp [HRes.toOutcome]

theorem dtype_string (n : UInt16) : DescriptorType.fromU16 n = some .string ↔ n = 3 := by
  constructor
  · intro h
    unfold DescriptorType.fromU16 at h
    iterate 12
      split at h
      · first | assumption | (exact absurd h (by simp only [Option.some.injEq, reduceCtorEq, not_false_eq_true]))
    simp at h
  · rintro rfl; decide

theorem getDescriptor_panic (p : Profile) (d : Device) (setup : SetupPacket) :
    d.getDescriptor p setup = .panic ↔
    p.overflowChecks = true ∧ setup.value.toNat / 256 = 3 ∧ setup.value.toNat % 256 ≠ 0 ∧
    ∃ s, d.stringPool (UInt8.ofNat (setup.value.toNat % 256)) = some s ∧ 127 ≤ units s % 256 := by
  have hv : UInt8.ofNat (setup.value.toNat % 256) = setup.value.toUInt8 := by
    apply u8_ext; simp
  have h3 : DescriptorType.fromU16 (setup.value >>> 8) = some .string ↔ setup.value.toNat / 256 = 3 := by
    rw [dtype_string, ← UInt16.toNat_inj, UInt16.toNat_shiftRight,
      show (8 : UInt16).toNat % 16 = 8 from rfl, Nat.shiftRight_eq_div_pow]; rfl
  have h0 : setup.value.toUInt8 = 0 ↔ setup.value.toNat % 256 = 0 := by
    rw [u8_eq_iff, UInt16.toNat_toUInt8]; rfl
  rw [hv]
  unfold Device.getDescriptor
  split
  · simp_all
  · simp_all
  · simp_all
  · rename_i hty
    simp only [h3.mp hty, true_and]
    split
    · rename_i hz
      simp [h0.mp hz]
    · rename_i hz
      simp only [ne_eq, mt h0.mpr hz, not_false_eq_true, true_and]
      split
      · rename_i s hs
        have : (stringDescriptor p s >>= fun desc => pure (clip desc setup.length)) = .panic ↔
            stringDescriptor p s = .panic := by
          cases stringDescriptor p s <;> simp [bind, Outcome.bind, pure]
        rw [this, stringDescriptor_panic]
        simp [hs]
      · rename_i hs
        simp [hs]
  · simp_all
  · rename_i hns _
    constructor
    · intro h; simp at h
    · rintro ⟨_, h, _⟩
      exact absurd (h3.mpr h) (by assumption)

theorem getDescriptor_terminates (p : Profile) (d : Device) (setup : SetupPacket) :
    d.getDescriptor p setup ≠ .diverge := by
  unfold Device.getDescriptor
  split
  · simp
  · simp
  · simp
  · dsimp only
    split
    · simp
    · split
      · rename_i s _
        rcases stringDescriptor_total p s with h | ⟨bs, h⟩ <;> simp [h, bind, Outcome.bind, pure]
      · simp
  · simp
  · simp

/-- GET_DESCRIPTOR to the device. -/
theorem descriptorReply_iff (p : Profile) (d : Device) (setup : SetupPacket) (h1 : setup.requestType = 0x80)
    (h2 : setup.request = 6) (o : Outcome Bytes) :
    DescriptorReply p d setup o ↔ d.getDescriptor p setup = o := by
  constructor
  · intro h
    have := h Unit ⟨fun _ _ _ _ _ _ u => (.ok [], u), fun _ _ _ _ u => (.ok [], u)⟩ ⟨0x80, 0, 64, 0⟩ none 0 []
      ⟨(), fun _ => false, fun _ => false⟩ rfl (by decide)
    rw [handleUrb_get _ _ _ _ _ _ _ _ _ rfl (by decide) h1 h2] at this
    exact (Prod.mk.inj this).1
  · intro h σ env ep owner len data w ha hd
    rw [handleUrb_get _ _ _ _ _ _ _ _ _ (u8_ext ha) hd h1 h2, h]

end Usbip
