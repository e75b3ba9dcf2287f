import Verif.Props.Session
/-!
# What a client learns by enumerating a device: C72
-/

namespace Usbip
open Spec Samples

theorem readable (p : Profile) (d : Device) (h : Describable d) :
    (∃ bs, d.getDescriptor p (getDescriptorSetup 1 0 0 18) = .ok bs ∧ readDevice bs = some (devView d)) ∧
    (∃ hdr, d.getDescriptor p (getDescriptorSetup 2 0 0 9) = .ok hdr ∧ hdr.length = 9 ∧
      ∀ n : UInt16, wordAt hdr 2 ≤ n.toNat →
        ∃ bs, d.getDescriptor p (getDescriptorSetup 2 0 0 n) = .ok bs ∧ readConfig bs = some (cfgView d)) := by
  have hcfg : ∀ n : UInt16, d.getDescriptor p (getDescriptorSetup 2 0 0 n) = .ok (d.configDescriptor.take n.toNat) := by
    intro n
    simp only [Device.getDescriptor, getDescriptorSetup, setup_value_hi]
    rw [show DescriptorType.fromU16 (UInt8.toUInt16 2) = some .configuration by decide]
    simp only
    rw [clip_take _ _ (describable_length h)]
  refine ⟨⟨_, ?_, readDevice_device d⟩, ⟨_, hcfg 9, ?_, fun n hn => ⟨_, hcfg n, ?_⟩⟩⟩
  · have := (C56_identity (σ := Unit) noHandlers p d ⟨0x80, 0, 64, 0⟩ none 0 [] ⟨(), fun _ => false, fun _ => false⟩ 0 0 18
      rfl (by decide)).1
    rw [handleUrb_get _ _ _ _ _ _ _ _ _ rfl (by decide) rfl rfl] at this
    rw [(Prod.mk.inj this).1]
    exact congrArg Outcome.ok (List.take_of_length_le (by simp [deviceBlock, le]))
  · rw [List.length_take]
    have := configDescriptor_length d
    show min 9 d.configDescriptor.length = 9
    omega
  · have := (config_header d h).2
    have h9 : (9 : UInt16).toNat = 9 := rfl
    rw [h9, this] at hn
    rw [List.take_of_length_le hn]
    exact readConfig_device d h

/-- C72 without the network: the descriptors of a device read back as the device. -/
theorem C72_readable (p : Profile) (d : Device) (h : Describable d) :
    (∃ bs, DescriptorReply p d (getDescriptorSetup 1 0 0 18) (.ok bs) ∧ readDevice bs = some (devView d)) ∧
    (∃ hdr, DescriptorReply p d (getDescriptorSetup 2 0 0 9) (.ok hdr) ∧ hdr.length = 9 ∧
      ∀ n : UInt16, wordAt hdr 2 ≤ n.toNat →
        ∃ bs, DescriptorReply p d (getDescriptorSetup 2 0 0 n) (.ok bs) ∧ readConfig bs = some (cfgView d)) := by
  have hiff : ∀ (type index : UInt8) (lang n : UInt16) o,
      DescriptorReply p d (getDescriptorSetup type index lang n) o ↔
        d.getDescriptor p (getDescriptorSetup type index lang n) = o :=
    fun _ _ _ _ o => descriptorReply_iff p d _ rfl rfl o
  simp only [hiff]
  exact readable p d h

/-! ### Over the wire -/

theorem readMany_prefix (p : Profile) (n : Nat) : ∀ (m : Nat) (s mid mid' : Stream) (cs cs' : List Cmd),
    readMany p n s = .ok (cs, mid) → readMany p (n + m) s = .ok (cs', mid') → cs'.take n = cs := by
  induction n with
  | zero =>
    intro m s mid mid' cs cs' h _
    simp only [readMany, Outcome.ok.injEq, Prod.mk.injEq] at h
    rw [← h.1]; simp
  | succ n ih =>
    intro m s mid mid' cs cs' h h'
    rw [Nat.add_right_comm] at h'
    rw [readMany, Outcome.bind_eq_ok] at h h'
    obtain ⟨⟨c, s1⟩, hc, h⟩ := h
    obtain ⟨⟨c2, s2⟩, hc2, h'⟩ := h'
    rw [hc, Outcome.ok.injEq, Prod.mk.injEq] at hc2
    obtain ⟨rfl, rfl⟩ := hc2
    dsimp only at h h'
    rw [Outcome.bind_eq_ok] at h h'
    obtain ⟨⟨l1, t1⟩, h1, h⟩ := h
    obtain ⟨⟨l2, t2⟩, h2, h'⟩ := h'
    simp only [Outcome.pure_eq, Outcome.ok.injEq, Prod.mk.injEq] at h h'
    rw [← h.1, ← h'.1, List.take_succ_cons, ih m s1 t1 t2 l1 l2 h1 h2]

/-- A connection's conversation continues the one it had. -/
theorem conversation_run {σ} (env : Env σ) (p : Profile) (input0 : Stream) (c : Nat) (es : List (Event σ)) :
    ∀ (s : Sys σ) (x : Conn), s.conns c = some x → (∃ log mid part, Conversation p input0 x log mid part) →
    ∃ x', (s.run env p es).conns c = some x' ∧ ∃ log mid part, Conversation p input0 x' log mid part := by
  induction es with
  | nil => intro s x hx h; exact ⟨x, hx, h⟩
  | cons e es ih =>
    intro s x hx h
    have : ∃ x', (s.step env p e).conns c = some x' ∧ ∃ log mid part, Conversation p input0 x' log mid part := by
      by_cases hr : x.status = .running
      case neg => exact ⟨x, step_ended env p s e c x hx hr, h⟩
      obtain ⟨log, mid, part, hc⟩ := h
      by_cases h1 : ∃ w, e = .iterate c w
      · obtain ⟨w, rfl⟩ := h1
        exact ⟨_, by simp only [Sys.step, hx, if_pos hr, setConn, if_true],
          conversation_iterate env p s.shared x w input0 log mid part hc hr⟩
      · by_cases h2 : e = .cancel c
        · subst h2
          refine ⟨{ x with status := .cancelled }, by simp only [Sys.step, hx, if_pos hr, setConn, if_true], log,
            mid, part, hc.commands, hc.replies, hc.sent, by simp, fun hp => absurd (hc.live hr).1 hp, hc.logged⟩
        · exact ⟨x, step_elsewhere env p s e c x hx (fun w hw => h1 ⟨w, hw⟩) h2, log, mid, part, hc⟩
    obtain ⟨x', hx', h'⟩ := this
    exact ih _ x' hx' h'

theorem ask_setup (type index : UInt8) (lang wLength : UInt16) :
    SetupPacket.parse [0x80, 6, index, type, UInt8.ofNat (lang.toNat % 256), UInt8.ofNat (lang.toNat / 256),
      UInt8.ofNat (wLength.toNat % 256), UInt8.ofNat (wLength.toNat / 256)]
      = getDescriptorSetup type index lang wLength := by
  rw [← C11_parse_encoding (getDescriptorSetup type index lang wLength)]
  congr 1
  have := type.toNat_lt
  have := index.toNat_lt
  have hv : (UInt16.ofNat (type.toNat * 256 + index.toNat)).toNat = type.toNat * 256 + index.toNat := by
    rw [UInt16.toNat_ofNat']; omega
  simp only [setupBytes, getDescriptorSetup, hv, List.cons.injEq, true_and, and_true]
  constructor
  · apply u8_ext; simp only [UInt8.toNat_ofNat']; omega
  · apply u8_ext; simp only [UInt8.toNat_ofNat']; omega

/-- Endpoint zero as `UsbDevice::new` makes it. -/
def Conventional (d : Device) : Prop := d.ep0In.address = 0x80 ∧ d.ep0In.attributes = 0

/-- The reply of a device to a descriptor request. -/
theorem ask_answered {σ} (env : Env σ) (p : Profile) (d : Device) (hc : Conventional d) (seq : UInt32)
    (type index : UInt8) (lang wLength : UInt16) (bs : Bytes)
    (hg : d.getDescriptor p (getDescriptorSetup type index lang wLength) = .ok bs) (r : Resp)
    (h : AnsweredBy env p d ⟨1, seq, 0, 1, 0⟩ wLength.toUInt32
      [0x80, 6, index, type, UInt8.ofNat (lang.toNat % 256), UInt8.ofNat (lang.toNat / 256),
       UInt8.ofNat (wLength.toNat % 256), UInt8.ofNat (wLength.toNat / 256)] [] r) :
    r = .retSubmit ⟨3, seq, 0, 1, 0⟩ 0 (UInt32.ofNat bs.length) 0 0 0 bs [] := by
  obtain ⟨h1, h2⟩ := hc
  unfold AnsweredBy at h
  dsimp only at h
  have hf : endpointAt d (Job.address ⟨d, ⟨1, seq, 0, 1, 0⟩, wLength.toUInt32,
      [0x80, 6, index, type, UInt8.ofNat (lang.toNat % 256), UInt8.ofNat (lang.toNat / 256),
       UInt8.ofNat (wLength.toNat % 256), UInt8.ofNat (wLength.toNat / 256)], []⟩) = some (d.ep0In, none) := by
    rw [endpointAt_eq]
    unfold Device.findEp
    rw [if_pos]
    rw [h1]; rfl
  rw [hf] at h
  dsimp only at h
  obtain ⟨w, h⟩ := h
  rw [setupAt_eq, ask_setup] at h
  have hu : (d.handleUrb env p d.ep0In none wLength.toUInt32 (getDescriptorSetup type index lang wLength) [] w).1 = .ok bs := by
    rw [handleUrb_get env p d d.ep0In none _ _ [] w h2 (by rw [h1]; decide) rfl rfl, hg]
  rw [(said_data_iff ..).mpr hu] at h
  exact h

theorem ask_wf (b : Bool) (seq : UInt32) (type index : UInt8) (lang wLength : UInt16) :
    WellFormed b (askDescriptor seq type index lang wLength) :=
  ⟨rfl, fun _ => Nat.le_refl 1, rfl, rfl, rfl⟩

/-- One descriptor request of an enumeration. -/
structure Ask where
  seq : UInt32
  type : UInt8
  index : UInt8
  lang : UInt16
  wLength : UInt16

def Ask.cmd (a : Ask) : Cmd := askDescriptor a.seq a.type a.index a.lang a.wLength

def Ask.setup (a : Ask) : SetupPacket := getDescriptorSetup a.type a.index a.lang a.wLength

theorem holding_asks (cur : Option Device) (l : List (Cmd × Resp)) (asks : List Ask)
    (h : l.map Prod.fst = asks.map Ask.cmd) : l.foldl grant cur = cur := by
  induction l generalizing asks with
  | nil => rfl
  | cons e l ih =>
    cases asks with
    | nil => simp at h
    | cons a asks =>
      simp only [List.map_cons, List.cons.injEq] at h
      obtain ⟨cmd, r⟩ := e
      obtain ⟨rfl, h2⟩ := h
      exact ih asks h2

/-- An import followed by descriptor requests, on any server: the replies. -/
theorem asks_answered {σ} (env : Env σ) (p : Profile) (devices : List Device) (w : World σ)
    (past es : List (Event σ)) (hd : (devices.map Device.busId).Nodup) (c : Nat) (busid : Bytes)
    (hb : busid.length = 32) (asks : List Ask) (ha : asks ≠ []) (more : Bytes) (fin : ErrKind) (x : Conn) :
    let cmds := .reqImport 0 busid :: asks.map Ask.cmd
    let es' := past ++ .connect c ⟨cmds.flatMap wireCmd ++ more, fin⟩ :: es
    Fresh env p (Sys.init devices w) es' →
    ((Sys.init devices w).run env p past).conns c = none →
    ((Sys.init devices w).run env p es').conns c = some x →
    cmds.length ≤ x.served.length →
    ∃ d, d.busId = cstr busid ∧ Given devices es' d ∧
      (Conventional d →
       (∀ a ∈ asks, ∃ bs, d.getDescriptor p a.setup = .ok bs ∧ bs.length < 2 ^ 32) →
       ∃ rs rest, decodeAll cmds x.output = some (.import 0 (some (devInfo d)) :: rs, rest) ∧
        ∀ (k : Nat) (a : Ask), asks[k]? = some a → ∀ bs, d.getDescriptor p a.setup = .ok bs →
          rs[k]?.bind dataOf = some bs) := by
  intro cmds es' hf hnone hx hlen
  -- the conversation
  have hrun : (Sys.init devices w).run env p es'
      = (((Sys.init devices w).run env p past).step env p (.connect c ⟨cmds.flatMap wireCmd ++ more, fin⟩)).run env p es := by
    simp only [es', Sys.run, List.foldl_append, List.foldl_cons]
  obtain ⟨x', hx', log, mid, part, hconv⟩ := conversation_run env p ⟨cmds.flatMap wireCmd ++ more, fin⟩ c es
    (((Sys.init devices w).run env p past).step env p (.connect c ⟨cmds.flatMap wireCmd ++ more, fin⟩))
    (Conn.new ⟨cmds.flatMap wireCmd ++ more, fin⟩)
    (by simp only [Sys.step, hnone, setConn, if_true]) ⟨[], _, [], conversation_new p _⟩
  rw [← hrun, hx, Option.some.injEq] at hx'
  subst hx'
  have hcoh := (C71_session env p devices w es' hd hf c x hx).1
  have hnam := C71_named env p devices w es' hd hf c x hx
  rw [hconv.logged] at hcoh hnam hlen
  rw [List.length_map] at hlen
  -- the commands
  have hwf : ∀ cm ∈ cmds, WellFormed p.debugAssertions cm := by
    intro cm hm
    rcases List.mem_cons.mp hm with rfl | hm
    · exact ⟨hb, fun _ => rfl⟩
    · obtain ⟨a, _, rfl⟩ := List.mem_map.mp hm
      exact ask_wf _ _ _ _ _ _
  have hpre : (log.map (·.1)).take cmds.length = cmds := by
    obtain ⟨m, hm⟩ := Nat.exists_eq_add_of_le hlen
    exact readMany_prefix p cmds.length m _ _ _ _ _ (C02_pipeline p cmds more fin hwf).1 (hm ▸ hconv.commands)
  obtain ⟨front, back, hfb, hfl⟩ : ∃ front back, log = front ++ back ∧ front.map (·.1) = cmds :=
    ⟨log.take cmds.length, log.drop cmds.length, (List.take_append_drop _ _).symm, by rw [List.map_take]; exact hpre⟩
  subst hfb
  cases front with
  | nil => simp [cmds] at hfl
  | cons e0 tl =>
    obtain ⟨cmd0, r0, b0⟩ := e0
    simp only [cmds, List.map_cons, List.cons.injEq] at hfl
    obtain ⟨rfl, htl⟩ := hfl
    -- the import
    obtain ⟨ha0, hb0⟩ := hconv.replies (Cmd.reqImport 0 busid, r0, b0) (by simp)
    have hexch : ∀ (pre : List (Cmd × Resp × Bytes)) (e : Cmd × Resp × Bytes) (post : List (Cmd × Resp × Bytes)),
        tl = pre ++ e :: post →
        Exchange env p ((pre.map (fun e => (e.1, e.2.1))).foldl grant (grant none (.reqImport 0 busid, r0)))
          (e.1, e.2.1) := by
      intro pre e post heq
      have := hcoh ((Cmd.reqImport 0 busid, r0) :: pre.map (fun e => (e.1, e.2.1))) (e.1, e.2.1)
        ((post ++ back).map (fun e => (e.1, e.2.1))) (by rw [heq]; simp)
      simpa [holding] using this
    have hhold : ∀ (pre : List (Cmd × Resp × Bytes)) (e : Cmd × Resp × Bytes) (post : List (Cmd × Resp × Bytes)),
        tl = pre ++ e :: post → ∃ a ∈ asks, asks[pre.length]? = some a ∧ e.1 = a.cmd ∧
          Exchange env p (grant none (.reqImport 0 busid, r0)) (e.1, e.2.1) := by
      intro pre e post heq
      have h1 := hexch pre e post heq
      rw [heq, List.map_append, List.map_cons] at htl
      obtain ⟨l1, l2, hl, h2, h3⟩ := List.map_eq_append_iff.mp htl.symm
      obtain ⟨a, l3, rfl, h4, h5⟩ := List.map_eq_cons_iff.mp h3
      rw [holding_asks _ _ l1 (by rw [List.map_map]; exact h2.symm)] at h1
      refine ⟨a, by rw [hl]; simp, ?_, h4.symm, h1⟩
      have hll : l1.length = pre.length := by simpa using congrArg List.length h2
      rw [hl, ← hll]; simp
    have hne : tl ≠ [] := by
      rintro rfl
      simp at htl
      exact ha htl
    have hgrant : ∃ d, r0 = .repImport 0 (some d) := by
      rcases ha0 with h | h
      · exact h
      · exfalso
        cases tl with
        | nil => exact hne rfl
        | cons e tl =>
          obtain ⟨a, _, _, hcmd, hex⟩ := hhold [] e tl rfl
          rw [hcmd] at hex
          obtain ⟨d, hd', _⟩ := hex
          have h' : r0 = .repImport 1 none := h
          rw [h'] at hd'
          simp [grant] at hd'
    obtain ⟨d, rfl⟩ := hgrant
    have hbus : d.busId = cstr busid := by
      have := hcoh [] (Cmd.reqImport 0 busid, .repImport 0 (some d))
        ((tl ++ back).map (fun e => (e.1, e.2.1))) (by simp)
      exact this
    refine ⟨d, hbus, hnam (.reqImport 0 busid) 0 d (by simp), ?_⟩
    intro hcv hok
    have hans : ∀ (pre : List (Cmd × Resp × Bytes)) (e : Cmd × Resp × Bytes) (post : List (Cmd × Resp × Bytes)),
        tl = pre ++ e :: post → ∃ a ∈ asks, asks[pre.length]? = some a ∧ ∃ bs, d.getDescriptor p a.setup = .ok bs ∧
          bs.length < 2 ^ 32 ∧ e.2.1 = .retSubmit ⟨3, a.seq, 0, 1, 0⟩ 0 (UInt32.ofNat bs.length) 0 0 0 bs [] := by
      intro pre e post heq
      obtain ⟨a, hm, hk, hcmd, hex⟩ := hhold pre e post heq
      obtain ⟨bs, hg, hl⟩ := hok a hm
      rw [hcmd] at hex
      obtain ⟨d', hd', hab⟩ := hex
      simp only [grant, Option.some.injEq] at hd'
      subst hd'
      exact ⟨a, hm, hk, bs, hg, hl, ask_answered env p d hcv a.seq a.type a.index a.lang a.wLength bs hg _ hab⟩
    have hdec := decodeAll_log (p := p) ((Cmd.reqImport 0 busid, .repImport 0 (some d), b0) :: tl)
      (back.flatMap (·.2.2) ++ part)
      (fun e he => hconv.replies e (by
        rcases List.mem_cons.mp he with rfl | he
        · simp
        · simp [he]))
      (by
        intro e he
        rcases List.mem_cons.mp he with rfl | he
        · trivial
        · obtain ⟨pre, post, heq⟩ := List.append_of_mem he
          obtain ⟨a, _, _, bs, _, hl, hr⟩ := hans pre e post heq
          rw [hr]; exact hl)
      (by
        intro e he
        rcases List.mem_cons.mp he with rfl | he
        · trivial
        · obtain ⟨pre, post, heq⟩ := List.append_of_mem he
          obtain ⟨a, _, _, bs, _, hl, hr⟩ := hans pre e post heq
          rw [hr]; exact .inl rfl)
    refine ⟨tl.map (fun e => replyInfo e.2.1), back.flatMap (·.2.2) ++ part, ?_, ?_⟩
    · rw [hconv.sent]
      simp only [List.map_cons, htl] at hdec
      rw [show (((Cmd.reqImport 0 busid, Resp.repImport 0 (some d), b0) :: tl) ++ back).flatMap (·.2.2) ++ part
        = ((Cmd.reqImport 0 busid, Resp.repImport 0 (some d), b0) :: tl).flatMap (·.2.2) ++ (back.flatMap (·.2.2) ++ part) by
          simp]
      exact hdec
    · intro k a hk bs hg
      have hkl : k < tl.length := by
        have h1 : tl.length = asks.length := by simpa using congrArg List.length htl
        rw [h1]
        exact (List.getElem?_eq_some_iff.mp hk).1
      obtain ⟨a', _, hk', bs', hg', _, hr⟩ := hans (tl.take k) tl[k] (tl.drop (k + 1))
        (by rw [List.getElem_cons_drop, List.take_append_drop])
      rw [List.length_take, Nat.min_eq_left (Nat.le_of_lt hkl), hk, Option.some.injEq] at hk'
      subst hk'
      rw [hg, Outcome.ok.injEq] at hg'
      subst hg'
      rw [List.getElem?_map, List.getElem?_eq_getElem hkl, Option.map_some, Option.bind_some, hr]
      rfl

theorem string_readable (p : Profile) (d : Device) (index : UInt8) (lang : UInt16) (s : Str) (h0 : index ≠ 0)
    (hs : d.stringPool index = some s) (hu : units s ≤ 126) :
    ∃ bs, d.getDescriptor p (getDescriptorSetup 3 index lang 255) = .ok bs ∧ bs.length ≤ 254 ∧
      decodeStringDescriptor bs = some (s.map Char.toNat) := by
  obtain ⟨bs, h, _, hl, hr⟩ := C14_string (σ := Unit) noHandlers p d ⟨0x80, 0, 64, 0⟩ none 0 []
    ⟨(), fun _ => false, fun _ => false⟩ index lang 255 s rfl (by decide) h0 hs hu
    (by show 2 + 2 * units s ≤ 255; omega)
  rw [handleUrb_get _ _ _ _ _ _ _ _ _ rfl (by decide) rfl rfl] at h
  exact ⟨bs, (Prod.mk.inj h).1, hl, hr⟩

/-- **C72, enumeration over the network.** On a server with any history and any other clients, a
connection sends an import, then asks for the device descriptor, the configuration header, `total` bytes
of the configuration and some strings. Once these have been answered, decoding what came back gives the
device granted, one whose bus id is the one named. Its identity, its whole tree of interfaces and
endpoints, and the text of its strings can be read from the answers. -/
theorem C72_enumeration {σ} (env : Env σ) (p : Profile) (devices : List Device) (w : World σ)
    (past es : List (Event σ)) (hd : (devices.map Device.busId).Nodup) (c : Nat) (busid : Bytes)
    (hb : busid.length = 32) (n1 n2 n3 : UInt32) (total lang : UInt16) (qs : List (UInt32 × UInt8))
    (more : Bytes) (fin : ErrKind) (x : Conn) :
    let cmds := .reqImport 0 busid :: askDescriptor n1 1 0 0 18 :: askDescriptor n2 2 0 0 9 ::
      askDescriptor n3 2 0 0 total :: qs.map (fun q => askDescriptor q.1 3 q.2 lang 255)
    let es' := past ++ .connect c ⟨cmds.flatMap wireCmd ++ more, fin⟩ :: es
    Fresh env p (Sys.init devices w) es' →
    ((Sys.init devices w).run env p past).conns c = none →
    ((Sys.init devices w).run env p es').conns c = some x →
    cmds.length ≤ x.served.length →
    ∃ d, d.busId = cstr busid ∧ Given devices es' d ∧
      (Conventional d → Describable d →
       (∀ q ∈ qs, q.2 ≠ 0 ∧ ∃ s, d.stringPool q.2 = some s ∧ units s ≤ 126) →
       ∃ rs rest, decodeAll cmds x.output = some (.import 0 (some (devInfo d)) :: rs, rest) ∧
        (rs[0]?.bind dataOf).bind readDevice = some (devView d) ∧
        (∃ hdr, rs[1]?.bind dataOf = some hdr ∧ hdr.length = 9 ∧
          (wordAt hdr 2 ≤ total.toNat → (rs[2]?.bind dataOf).bind readConfig = some (cfgView d))) ∧
        ∀ (k : Nat) (q : UInt32 × UInt8) (s : Str), qs[k]? = some q → d.stringPool q.2 = some s →
          (rs[3 + k]?.bind dataOf).bind decodeStringDescriptor = some (s.map Char.toNat)) := by
  intro cmds es' hf hnone hx hlen
  have hcmds : cmds = .reqImport 0 busid :: (Ask.mk n1 1 0 0 18 :: Ask.mk n2 2 0 0 9 :: Ask.mk n3 2 0 0 total ::
      qs.map (fun q => Ask.mk q.1 3 q.2 lang 255)).map Ask.cmd := by
    simp [cmds, Ask.cmd]
  obtain ⟨d, hbus, hgiv, h⟩ := asks_answered env p devices w past es hd c busid hb
    (Ask.mk n1 1 0 0 18 :: Ask.mk n2 2 0 0 9 :: Ask.mk n3 2 0 0 total :: qs.map (fun q => Ask.mk q.1 3 q.2 lang 255))
    (by simp) more fin x (by rw [← hcmds]; exact hf) hnone (by rw [← hcmds]; exact hx) (by rw [← hcmds]; exact hlen)
  rw [← hcmds] at hgiv h
  refine ⟨d, hbus, hgiv, ?_⟩
  intro hcv hde hq
  obtain ⟨⟨dev, hdev, hdevr⟩, hdr, hhdr, hhl, hcfg⟩ := readable p d hde
  have htot : d.getDescriptor p (getDescriptorSetup 2 0 0 total) = .ok (d.configDescriptor.take total.toNat) := by
    simp only [Device.getDescriptor, getDescriptorSetup, setup_value_hi]
    rw [show DescriptorType.fromU16 (UInt8.toUInt16 2) = some .configuration by decide]
    simp only
    rw [clip_take _ _ (describable_length hde)]
  have hdl : dev.length < 2 ^ 32 := by
    simp only [Device.getDescriptor, getDescriptorSetup, setup_value_hi] at hdev
    rw [show DescriptorType.fromU16 (UInt8.toUInt16 1) = some .device by decide] at hdev
    simp only [Outcome.ok.injEq] at hdev
    rw [← hdev, clip_take _ _ (by simp [Device.deviceDescriptor])]
    simp only [List.length_take]
    have : (18 : UInt16).toNat = 18 := rfl
    omega
  obtain ⟨rs, rest, hdec, hrs⟩ := h hcv (by
    intro a ha
    simp only [List.mem_cons, List.mem_map] at ha
    rcases ha with rfl | rfl | rfl | ⟨q, hqm, rfl⟩
    · exact ⟨dev, hdev, hdl⟩
    · exact ⟨hdr, hhdr, by omega⟩
    · refine ⟨_, htot, ?_⟩
      rw [List.length_take]
      have := total.toNat_lt
      omega
    · obtain ⟨h0, s, hs, hu⟩ := hq q hqm
      obtain ⟨bs, hg, hl, _⟩ := string_readable p d q.2 lang s h0 hs hu
      exact ⟨bs, hg, by omega⟩)
  refine ⟨rs, rest, hdec, ?_, ⟨hdr, hrs 1 _ rfl _ hhdr, hhl, ?_⟩, ?_⟩
  · rw [hrs 0 _ rfl _ hdev]; exact hdevr
  · intro hn
    obtain ⟨bs, hg, hr⟩ := hcfg total hn
    rw [hrs 2 _ rfl _ hg]; exact hr
  · intro k q s hk hs
    obtain ⟨h0, s', hs', hu⟩ := hq q (List.mem_of_getElem? hk)
    rw [hs, Option.some.injEq] at hs'
    subst hs'
    obtain ⟨bs, hg, _, hr⟩ := string_readable p d q.2 lang s h0 hs hu
    rw [hrs (3 + k) (Ask.mk q.1 3 q.2 lang 255) (by
      rw [Nat.add_comm]
      simp [hk]) bs hg]
    exact hr

/-- Not vacuous: with another client on the other device, a client enumerates "1-1", a device with two
interfaces, three endpoints, a class specific block and a string with a character outside the basic plane. -/
example :
    let cmds : List Cmd := .reqImport 0 busA :: askDescriptor 1 1 0 0 18 :: askDescriptor 2 2 0 0 9 ::
      askDescriptor 3 2 0 0 60 :: [(4, 1), (5, 5)].map (fun q => askDescriptor q.1 3 q.2 0x409 255)
    let past : List (Event Nat) := [.connect 1 ⟨wireCmd (.reqImport 0 busB), .unexpectedEof⟩, .iterate 1 .full]
    let s0 := (Sys.init [devA, devB] world).run Samples.env dev past
    let s := (Sys.init [devA, devB] world).run Samples.env dev
      (past ++ .connect 0 ⟨cmds.flatMap wireCmd ++ [], .unexpectedEof⟩ :: List.replicate 6 (.iterate 0 .full))
    (s0.conns 0).isNone ∧ (s.conns 0).map (fun x => x.served.length) = some 6 ∧
    Conventional devA ∧ Describable devA ∧
    (let got (k : Nat) : Option Bytes :=
       ((s.conns 0).bind (fun x => decodeAll cmds x.output)).bind (fun q => q.1[k]?.bind dataOf)
     (got 1).bind readDevice = some (devView devA) ∧ (got 2).map (wordAt · 2) = some 51 ∧
     (got 3).bind readConfig = some (cfgView devA) ∧
     (got 4).bind decodeStringDescriptor = some [0xE9, 0x1F600] ∧
     (got 5).bind decodeStringDescriptor = some [0x68, 0x69]) ∧
    (cfgView devA).interfaces.map (fun f => (f.ifClass, f.extra, f.endpoints.map EpView.address)) =
      [(3, [[3, 0x21, 7]], [0x81, 2]), (255, [], [0x83])] := by
  refine ⟨by decide +kernel, by decide +kernel, ?_, ?_, by decide +kernel, by decide +kernel⟩
  · exact ⟨by decide +kernel, by decide +kernel⟩
  · refine ⟨by decide +kernel, by decide +kernel, by decide +kernel, ?_⟩
    intro f hf
    have : f = intf0 ∨ f = intf1 := by simpa [devA] using hf
    rcases this with rfl | rfl
    · exact ⟨[[3, 0x21, 7]], by decide +kernel, by decide +kernel⟩
    · exact ⟨[], by decide +kernel, by decide +kernel⟩

end Usbip
