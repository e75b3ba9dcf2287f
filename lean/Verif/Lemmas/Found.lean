import Verif.Lemmas.Held
import Verif.Props.Driver
import Verif.Props.Build
import Verif.Spec.Found
/-! Helper lemmas: what a host is given for a device. -/

namespace Usbip
open Spec

theorem wordAt_take (b : Bytes) {n i : Nat} (h : i + 1 < n) : wordAt (b.take n) i = wordAt b i := by
  unfold wordAt byteAt
  rw [List.getElem?_take_of_lt (by omega), List.getElem?_take_of_lt (by omega)]

/-- What is given for a descriptor, if there is one. -/
theorem saidTo_descriptor {σ} {env : Env σ} {p : Profile} {dev : Device} (hc : Conventional dev) {g : Returned}
    (hs : SaidTo env p dev g) {type index : UInt8} {lang wLength : UInt16} (ha : g.urb.AsksFor type index lang wLength) {bs : Bytes}
    (hg : dev.getDescriptor p (getDescriptorSetup type index lang wLength) = .ok bs) : g.status = 0 ∧ g.data = bs := by
  obtain ⟨h1, h2⟩ := hc
  obtain ⟨a1, a2, a3⟩ := ha
  unfold SaidTo at hs
  have hf : endpointAt dev (UInt8.ofNat (if g.urb.input then g.urb.ep.toNat % 128 + 128 else g.urb.ep.toNat % 256)) =
      some (dev.ep0In, none) := by
    rw [endpointAt_eq, a1, a2]
    unfold Device.findEp
    rw [if_pos]
    rw [h1]; rfl
  rw [hf] at hs
  dsimp only at hs
  obtain ⟨w, hs⟩ := hs
  rw [setupAt_eq, a3, ask_setup] at hs
  have hu : (dev.handleUrb env p dev.ep0In none g.urb.len (getDescriptorSetup type index lang wLength) g.urb.data w).1 = .ok bs := by
    rw [handleUrb_get env p dev dev.ep0In none _ _ _ w h2 (by rw [h1]; decide) rfl rfl, hg]
  rw [(said_data_iff ..).mpr hu] at hs
  exact hs

/-- ... or if there is none. -/
theorem saidTo_any {σ} {env : Env σ} {p : Profile} {dev : Device} (hc : Conventional dev) {g : Returned}
    (hs : SaidTo env p dev g) {type index : UInt8} {lang wLength : UInt16} (ha : g.urb.AsksFor type index lang wLength) :
    match descriptorOf dev type.toNat index.toNat with
    | some b => g.status = 0 ∧ g.data = atMost wLength.toNat b
    | none => g.status = 1 ∧ g.data = [] := by
  obtain ⟨h1, h2⟩ := hc
  obtain ⟨a1, a2, a3⟩ := ha
  unfold SaidTo at hs
  have hf : endpointAt dev (UInt8.ofNat (if g.urb.input then g.urb.ep.toNat % 128 + 128 else g.urb.ep.toNat % 256)) =
      some (dev.ep0In, none) := by
    rw [endpointAt_eq, a1, a2]
    unfold Device.findEp
    rw [if_pos]
    rw [h1]; rfl
  rw [hf] at hs
  dsimp only at hs
  obtain ⟨w, hs⟩ := hs
  rw [setupAt_eq, a3, ask_setup] at hs
  have hstd : standard dev.ep0In (getDescriptorSetup type index lang wLength) := .inl ⟨by rw [h1]; decide, rfl, rfl⟩
  have hat : dev.ep0In.attributes.toNat = 0 := by rw [h2]; rfl
  have hadr : 128 ≤ dev.ep0In.address.toNat := by rw [h1]; decide
  have hv : (getDescriptorSetup type index lang wLength).value.toNat = type.toNat * 256 + index.toNat := by
    have := type.toNat_lt
    have := index.toNat_lt
    show (UInt16.ofNat _).toNat = _
    rw [UInt16.toNat_ofNat']; omega
  have hi := index.toNat_lt
  have v1 : (getDescriptorSetup type index lang wLength).value.toNat / 256 = type.toNat := by rw [hv]; omega
  have v2 : (getDescriptorSetup type index lang wLength).value.toNat % 256 = index.toNat := by rw [hv]; omega
  have hno : addressee dev dev.ep0In none g.urb.len (getDescriptorSetup type index lang wLength) g.urb.data = none := by
    unfold addressee
    rw [if_pos hat, if_pos hstd]
  unfold said at hs
  rw [hno] at hs
  simp only [hat, hstd, hadr, and_self, if_true, v1, v2] at hs
  by_cases ho : Overflows p dev type.toNat index.toNat
  · rw [if_pos ho] at hs; exact hs.elim
  · rw [if_neg ho] at hs
    cases hd : descriptorOf dev type.toNat index.toNat with
    | none => rw [hd] at hs; exact hs
    | some b => rw [hd] at hs; exact hs

theorem config_get (p : Profile) {d : Device} (h : Describable d) (n : UInt16) :
    d.getDescriptor p (getDescriptorSetup 2 0 0 n) = .ok (d.configDescriptor.take n.toNat) := by
  simp only [Device.getDescriptor, getDescriptorSetup, setup_value_hi]
  rw [show DescriptorType.fromU16 (UInt8.toUInt16 2) = some .configuration by decide]
  simp only
  rw [clip_take _ _ (describable_length h)]

theorem device_get (p : Profile) (d : Device) (n : UInt16) (h : 18 ≤ n.toNat) :
    d.getDescriptor p (getDescriptorSetup 1 0 0 n) = .ok (deviceBlock d) := by
  have h1 := (C56_identity (σ := Unit) noHandlers p d ⟨0x80, 0, 64, 0⟩ none 0 [] ⟨(), fun _ => false, fun _ => false⟩ 0 0 n
    rfl (by decide)).1
  rw [handleUrb_get _ _ _ _ _ _ _ _ _ rfl (by decide) rfl rfl] at h1
  rw [(Prod.mk.inj h1).1, List.take_of_length_le (by simp only [deviceBlock, le, List.length_append, List.length_cons, List.length_nil]; omega)]

theorem string_get (p : Profile) (d : Device) (index : UInt8) (lang n : UInt16) (s : Str) (h0 : index ≠ 0)
    (hs : d.stringPool index = some s) (hu : units s ≤ 126) (hn : 254 ≤ n.toNat) :
    ∃ bs, d.getDescriptor p (getDescriptorSetup 3 index lang n) = .ok bs ∧ decodeStringDescriptor bs = some (s.map Char.toNat) := by
  obtain ⟨bs, h, _, hl, hr⟩ := C14_string (σ := Unit) noHandlers p d ⟨0x80, 0, 64, 0⟩ none 0 []
    ⟨(), fun _ => false, fun _ => false⟩ index lang n s rfl (by decide) h0 hs hu (by omega)
  rw [handleUrb_get _ _ _ _ _ _ _ _ _ rfl (by decide) rfl rfl] at h
  exact ⟨bs, (Prod.mk.inj h).1, hr⟩

/-- A host that is given what the device says learns what was said about it. -/
theorem learned {σ} {env : Env σ} {p : Profile} {dev : Device} {pl : Plan} (hb : Built dev pl) (hd : pl.Describable) {x : Driver}
    (hr : x.phase = .attached → readDevInfo ((x.heard.drop 8).take 312) = devInfo dev)
    (hs : ∀ g ∈ x.done, SaidTo env p dev g) : x.Learned pl := by
  have hc : Conventional dev := ⟨by rw [hb.ep0In], by rw [hb.ep0In]⟩
  have hde := built_describable hb hd
  have hT : ∀ (i : UInt8) (s : Str), i ≠ 0 → dev.stringPool i = some s → some s ∈ pl.names.all → x.Text i.toNat s := by
    intro i s h0 hi hm g hg lang n ha hn
    rw [show UInt8.ofNat i.toNat = i by simp] at ha
    obtain ⟨bs, h1, h2⟩ := string_get p dev i lang n s h0 hi (hd.names s hm) hn
    obtain ⟨k1, k2⟩ := saidTo_descriptor hc (hs g hg) ha h1
    exact ⟨k1, by rw [k2]; exact h2⟩
  obtain ⟨s1, s2⟩ := built_shows hb hd x.Text hT
  have h9 := configDescriptor_length dev
  refine ⟨fun h => by rw [hr h]; exact built_info hb, fun g hg n ha hn => ?_, fun g hg n ha hn => ?_,
    fun g0 hg0 n0 ha0 hn0 g hg n ha hn => ?_⟩
  · obtain ⟨k1, k2⟩ := saidTo_descriptor hc (hs g hg) ha (device_get p dev n hn)
    exact ⟨k1, devView dev, by rw [k2]; exact readDevice_device dev, s1⟩
  · obtain ⟨k1, k2⟩ := saidTo_descriptor hc (hs g hg) ha (config_get p hde n)
    refine ⟨k1, ?_⟩
    rw [k2, List.length_take]
    omega
  · obtain ⟨_, k2⟩ := saidTo_descriptor hc (hs g0 hg0) ha0 (config_get p hde n0)
    obtain ⟨j1, j2⟩ := saidTo_descriptor hc (hs g hg) ha (config_get p hde n)
    refine ⟨j1, cfgView dev, ?_, s2⟩
    have hw := (config_header dev hde).2
    rw [wordAt_take _ (by omega)] at hw
    rw [k2, wordAt_take _ (by omega), hw] at hn
    rw [j2, List.take_of_length_le hn]
    exact readConfig_device dev hde

/-- The record in the reply to an import request. -/
theorem granted_record {p : Profile} {dev : Device} {bs : Bytes} (hb : (Resp.repImport 0 (some dev)).toBytes p = .ok bs)
    (more : Bytes) : readDevInfo (((bs ++ more).drop 8).take 312) = devInfo dev := by
  simp only [Resp.toBytes, Outcome.bind_eq_ok] at hb
  obtain ⟨_, h0, hb⟩ := hb
  have h0 := toBytes_inv h0
  simp only [Outcome.pure_eq, Outcome.ok.injEq] at hb
  subst h0; subst hb
  have e : be16 USBIP_VERSION ++ be16 OP_REP_IMPORT ++ be32 0 ++ recordBytes dev ++ more =
      (be16 USBIP_VERSION ++ be16 OP_REP_IMPORT ++ be32 0) ++ (recordBytes dev ++ more) := by simp
  rw [e, List.drop_left' (by simp), List.take_left' (recordBytes_length dev)]
  exact readDevInfo_record dev

theorem saidTo_of_answered {σ} {env : Env σ} {p : Profile} {dev : Device} {devid : UInt32} {g : Returned} {h : Header}
    {st l a b n : UInt32} {buf iso : Bytes} (hst : st.toNat = g.status) (hbuf : buf = g.data)
    (ha : AnsweredBy env p dev ⟨1, g.seq, devid, if g.urb.input then 1 else 0, g.urb.ep⟩ g.urb.len g.urb.setup g.urb.data
      (.retSubmit h st l a b n buf iso)) : SaidTo env p dev g := by
  unfold AnsweredBy at ha
  unfold SaidTo
  have hj : Job.address ⟨dev, ⟨1, g.seq, devid, if g.urb.input then 1 else 0, g.urb.ep⟩, g.urb.len, g.urb.setup, g.urb.data⟩ =
      UInt8.ofNat (if g.urb.input then g.urb.ep.toNat % 128 + 128 else g.urb.ep.toNat % 256) := by
    unfold Job.address
    dsimp only
    cases g.urb.input <;> rfl
  dsimp only at ha
  rw [hj] at ha
  generalize UInt8.ofNat (if g.urb.input then g.urb.ep.toNat % 128 + 128 else g.urb.ep.toNat % 256) = A at ha ⊢
  subst hbuf
  have fin : ∀ {k : UInt32}, st = k → g.status = k.toNat := fun hk => by rw [← hst, hk]
  split at ha
  · rename_i h1
    rw [h1]
    simp only [Resp.retSubmit.injEq] at ha
    exact ⟨fin ha.2.1, ha.2.2.2.2.2.2.1⟩
  · rename_i ep owner h1
    rw [h1]
    obtain ⟨w, hw⟩ := ha
    refine ⟨w, ?_⟩
    split at hw
    · rename_i b h2
      rw [h2]
      simp only [Resp.retSubmit.injEq] at hw
      exact ⟨fin hw.2.1, hw.2.2.2.2.2.2.1⟩
    · rename_i h2
      rw [h2]
      simp only [Resp.retSubmit.injEq] at hw
      exact ⟨fin hw.2.1, hw.2.2.2.2.2.2.1⟩
    · exact hw.elim

section
variable {τ : Type} {code : Code τ} {env : Env (HandlerId → τ)} {p : Profile} {devices : List Device} {dev : Device}
  {w : World (HandlerId → τ)}
  {e : MachineExec code env p (Machine.init code devices w)} {c : Nat} {busid : Bytes} {devid : UInt32} {d : Nat → Driver}

/-- What a host is given comes from the device it has asked for. -/
theorem found_told (ha : Alongside e c busid devid d) (hE : Exported e devices dev busid)
    (f : Nat → List (MachineLabel (HandlerId → τ)) × List (Bytes × Handled)) (hf : ∀ n, Told e c n (f n).1 (f n).2)
    (h0 : (f 0).1 = []) (hs : ∀ n, (f (n + 1)).1 = (f n).1 ++ (e.label n).toList)
    (hx : Exchanged e c d (fun n => (f n).2.map (·.2))) :
    (∀ n, (∀ g ∈ (f n).2.map (·.2), Modest g.2.1) → (d n).phase ≠ .broken →
      ((d n).phase = .attached → readDevInfo (((d n).heard.drop 8).take 312) = devInfo dev) ∧
      ∀ g ∈ (d n).done, SaidTo env p dev g) ∧
    ∀ n, (∀ g ∈ (f n).2.map (·.2), Modest g.2.1) → (d n).phase = .attached → (e.state n).front c = .accepted := by
  refine ⟨fun n hm hp => ⟨fun hat => ?_, fun g hg => ?_⟩, fun n hm hat => ?_⟩
  · have hst := (host_inv ha hx n hm).1.state
    rw [hat] at hst
    obtain ⟨e0, l1, l2, todo, hA⟩ := hst
    obtain ⟨dev', h1, h2⟩ := hA.first
    have hmem : e0 ∈ (f n).2.map (·.2) := by rw [hA.split]; simp
    obtain ⟨_, hbytes, _⟩ := hx.ok n e0 hmem
    obtain ⟨_, _, _, h3, _⟩ := C92_safe code env p devices w e c busid devid d ha _ hx n hm
    obtain ⟨e0', rest, _, hsp, hcmd, _⟩ := h3 hat
    have : e0' = e0 := by rw [hA.split] at hsp; exact (List.cons.inj hsp).1.symm
    subst this
    obtain ⟨g, hg, hge⟩ := List.mem_map.mp hmem
    have hfrom := fromDevice ha hE.named hE.single (ls := fun n => (f n).1) h0 hs (hf n) g hg
    rw [hge, hcmd, h1] at hfrom
    obtain rfl : dev' = dev := hfrom 0 dev' rfl
    rw [hA.heard, List.append_assoc]
    rw [h1] at hbytes
    exact granted_record hbytes _
  · have h1 := ((C92_safe code env p devices w e c busid devid d ha _ hx n hm).2.2.1 hp).2
    have h2 := h1.subset (List.mem_map_of_mem (f := fun g => (g.urb.cmd devid g.seq, g.status, g.data)) hg)
    obtain ⟨g0, hg0, ho⟩ := List.mem_filterMap.mp h2
    obtain ⟨g1, hg1, rfl⟩ := List.mem_map.mp hg0
    have hfrom := fromDevice ha hE.named hE.single (ls := fun n => (f n).1) h0 hs (hf n) g1 hg1
    obtain ⟨b0, cmd, resp, b1⟩ := g1
    dsimp only at ho hfrom
    cases cmd <;> cases resp <;> simp only [outcome] at ho <;> try cases ho
    rename_i hd fl len sf np iv setup data iso hd' st l a b n' buf iso'
    simp only [Option.some.injEq, Prod.mk.injEq, Urb.cmd, Cmd.submit.injEq] at ho
    obtain ⟨⟨q1, _, q2, _, _, _, q3, q4, _⟩, q5, q6⟩ := ho
    subst q1; subst q2; subst q3; subst q4
    exact saidTo_of_answered q5 q6 hfrom
  · apply Classical.byContradiction
    intro hn
    have hL := (hf n).log.other hn
    obtain ⟨_, _, _, h3, _⟩ := C92_safe code env p devices w e c busid devid d ha _ hx n hm
    obtain ⟨e0, rest, _, hsp, _⟩ := h3 hat
    rw [hL] at hsp
    cases hsp

theorem found (hb : Behaves code env) (ha : Alongside e c busid devid d) (hE : Exported e devices dev busid) :
    ∃ log, Exchanged e c d log ∧
      (∀ n, (∀ g ∈ log n, Modest g.2.1) → (d n).phase ≠ .broken →
        ((d n).phase = .attached → readDevInfo (((d n).heard.drop 8).take 312) = devInfo dev) ∧
        ∀ g ∈ (d n).done, SaidTo env p dev g) ∧
      ∀ n, (∀ g ∈ log n, Modest g.2.1) → (d n).phase = .attached → (e.state n).front c = .accepted := by
  obtain ⟨f, hf, h0, hs⟩ := exists_told hb e c
  have hx := exchanged_told hb ha f hf
  obtain ⟨h1, h2⟩ := found_told ha hE f (fun n => (hf n).1) h0 hs hx
  exact ⟨_, hx, h1, h2⟩

end

end Usbip
