import Verif.Lemmas.Wire
/-! Evaluating and inverting `readCommand` on a whole stream. -/

namespace Usbip
open Spec

theorem assert_ok_apply {S} (p : Profile) {c : Bool} (s : S)
    (h : p.debugAssertions = true → c = true) : rdAssert p c s = .ok ((), s) := by
  rw [rdAssert_apply, debugAssert_of p h]; rfl

theorem assert_inv {S} {p : Profile} {c : Bool} {s s' : S} {u : Unit}
    (h : rdAssert p c s = .ok (u, s')) : (p.debugAssertions = true → c = true) ∧ s' = s := by
  rw [rdAssert_apply, Outcome.bind_eq_ok] at h
  obtain ⟨a, h1, h2⟩ := h
  simp only [Outcome.ok.injEq, Prod.mk.injEq, true_and] at h2
  exact ⟨debugAssert_ok h1, h2.symm⟩

theorem readHeader_fwd (p : Profile) (h : Header) (c : UInt16) (rest : Bytes) (fin : ErrKind)
    (hc : h.command.toNat = c.toNat)
    (hd : p.debugAssertions = true → h.direction.toNat ≤ 1) :
    (readHeader p c : Rd Stream Header)
      ⟨be32 h.seqnum ++ (be32 h.devid ++ (be32 h.direction ++ (be32 h.ep ++ rest))), fin⟩
      = .ok (h, ⟨rest, fin⟩) := by
  have hc' : c.toUInt32 = h.command := u32_ext (by rw [hc]; simp)
  simp only [readHeader, rd_bind, stream_readU32, Outcome.bind_ok]
  rw [assert_ok_apply p _ (fun hp => (dir_and_one _).mpr (hd hp))]
  simp only [Outcome.bind_ok, stream_readU32, rd_pure, hc']

theorem readHeader_inv {p : Profile} {c : UInt16} {h : Header} {s s' : Stream}
    (e : (readHeader p c : Rd Stream Header) s = .ok (h, s')) :
    h.command.toNat = c.toNat ∧ (p.debugAssertions = true → h.direction.toNat ≤ 1) ∧
    s = ⟨be32 h.seqnum ++ (be32 h.devid ++ (be32 h.direction ++ (be32 h.ep ++ s'.bytes))), s'.fin⟩ := by
  simp only [readHeader, rd_bind, Outcome.bind_eq_ok] at e
  obtain ⟨⟨a1, s1⟩, e1, ⟨a2, s2⟩, e2, ⟨a3, s3⟩, e3, ⟨a4, s4⟩, e4, ⟨a5, s5⟩, e5, e6⟩ := e
  have i1 := stream_readU32_inv e1
  have i2 := stream_readU32_inv e2
  have i3 := stream_readU32_inv e3
  obtain ⟨ia, i4⟩ := assert_inv e4
  have i5 := stream_readU32_inv e5
  simp only [rd_pure, Outcome.ok.injEq, Prod.mk.injEq] at e6
  obtain ⟨e7, e8⟩ := e6
  subst e7 e8
  dsimp only at *
  subst i4
  refine ⟨by simp, fun hp => (dir_and_one _).mp (ia hp), ?_⟩
  rw [i1, i2, i3, i5]

theorem readSubmit_fwd (p : Profile) (h : Header) (a len b n c : UInt32) (setup data iso rest : Bytes)
    (fin : ErrKind) (hw : WellFormed p.debugAssertions (.submit h a len b n c setup data iso)) :
    (readSubmit p : Rd Stream Cmd)
      ⟨be32 h.seqnum ++ (be32 h.devid ++ (be32 h.direction ++ (be32 h.ep ++ (be32 a ++ (be32 len ++
        (be32 b ++ (be32 n ++ (be32 c ++ (setup ++ (data ++ (iso ++ rest))))))))))), fin⟩
      = .ok (.submit h a len b n c setup data iso, ⟨rest, fin⟩) := by
  obtain ⟨h1, h2, h3, h4, h5⟩ := hw
  simp only [readSubmit, rd_bind]
  rw [readHeader_fwd p h USBIP_CMD_SUBMIT _ fin (by rw [h1]; rfl) h2]
  simp only [Outcome.bind_ok, stream_readU32]
  rw [stream_readExact_append setup _ fin 8 h3]
  simp only [Outcome.bind_ok]
  have hdata : (if h.direction = dirIn then (pure [] : Rd Stream Bytes)
      else readExact len.toNat) ⟨data ++ (iso ++ rest), fin⟩ = .ok (data, ⟨iso ++ rest, fin⟩) := by
    by_cases hd : h.direction.toNat = 1
    · rw [if_pos ((dirIn_iff _).mpr hd)]
      rw [if_pos hd] at h4
      have : data = [] := List.length_eq_zero_iff.mp h4
      subst this
      rfl
    · rw [if_neg (fun hh => hd ((dirIn_iff _).mp hh))]
      rw [if_neg hd] at h4
      exact stream_readExact_append data _ fin _ h4
  rw [hdata]
  simp only [Outcome.bind_ok]
  have hiso : (if n ≠ 0 ∧ n ≠ 0xFFFFFFFF then (readExact (16 * n.toNat) : Rd Stream Bytes)
      else pure []) ⟨iso ++ rest, fin⟩ = .ok (iso, ⟨rest, fin⟩) := by
    by_cases hd : hasIso n
    · rw [if_pos ((hasIso_iff n).mpr hd)]
      rw [if_pos hd] at h5
      exact stream_readExact_append iso _ fin _ h5
    · rw [if_neg (fun hh => hd ((hasIso_iff n).mp hh))]
      rw [if_neg hd] at h5
      have : iso = [] := List.length_eq_zero_iff.mp h5
      subst this
      rfl
  rw [hiso]
  rfl

theorem readSubmit_inv {p : Profile} {cmd : Cmd} {s s' : Stream}
    (e : (readSubmit p : Rd Stream Cmd) s = .ok (cmd, s')) :
    ∃ h a len b n c setup data iso, cmd = .submit h a len b n c setup data iso ∧
      WellFormed p.debugAssertions cmd ∧
      s = ⟨be32 h.seqnum ++ (be32 h.devid ++ (be32 h.direction ++ (be32 h.ep ++ (be32 a ++
        (be32 len ++ (be32 b ++ (be32 n ++ (be32 c ++ (setup ++ (data ++ (iso ++ s'.bytes))))))))))),
        s'.fin⟩ := by
  simp only [readSubmit, rd_bind, Outcome.bind_eq_ok] at e
  obtain ⟨⟨h, s1⟩, e1, ⟨a, s2⟩, e2, ⟨len, s3⟩, e3, ⟨b, s4⟩, e4, ⟨n, s5⟩, e5, ⟨c, s6⟩, e6,
    ⟨setup, s7⟩, e7, ⟨data, s8⟩, e8, ⟨iso, s9⟩, e9, e10⟩ := e
  simp only [rd_pure, Outcome.ok.injEq, Prod.mk.injEq] at e10
  obtain ⟨e11, e12⟩ := e10
  dsimp only at *
  subst e12
  obtain ⟨i1, i1', i1''⟩ := readHeader_inv e1
  have i2 := stream_readU32_inv e2
  have i3 := stream_readU32_inv e3
  have i4 := stream_readU32_inv e4
  have i5 := stream_readU32_inv e5
  have i6 := stream_readU32_inv e6
  obtain ⟨i7, i7'⟩ := stream_readExact_inv e7
  have i8 : data.length = (if h.direction.toNat = 1 then 0 else len.toNat) ∧
      s7 = ⟨data ++ s8.bytes, s8.fin⟩ := by
    by_cases hd : h.direction.toNat = 1
    · rw [if_pos ((dirIn_iff _).mpr hd)] at e8
      simp only [rd_pure, Outcome.ok.injEq, Prod.mk.injEq] at e8
      obtain ⟨e8, e8'⟩ := e8
      subst e8 e8'
      simp [hd]
    · rw [if_neg (fun hh => hd ((dirIn_iff _).mp hh))] at e8
      rw [if_neg hd]
      exact stream_readExact_inv e8
  have i9 : iso.length = (if hasIso n then 16 * n.toNat else 0) ∧
      s8 = ⟨iso ++ s9.bytes, s9.fin⟩ := by
    by_cases hd : hasIso n
    · rw [if_pos ((hasIso_iff n).mpr hd)] at e9
      rw [if_pos hd]
      exact stream_readExact_inv e9
    · rw [if_neg (fun hh => hd ((hasIso_iff n).mp hh))] at e9
      simp only [rd_pure, Outcome.ok.injEq, Prod.mk.injEq] at e9
      obtain ⟨e9, e9'⟩ := e9
      subst e9 e9'
      simp [hd]
  refine ⟨h, a, len, b, n, c, setup, data, iso, e11.symm, ?_, ?_⟩
  · rw [← e11]
    exact ⟨by rw [i1]; rfl, i1', i7, i8.1, i9.1⟩
  · rw [i1'', i2, i3, i4, i5, i6, i7', i8.2, i9.2]

theorem readUnlink_fwd (p : Profile) (h : Header) (u : UInt32) (pad rest : Bytes)
    (fin : ErrKind) (hw : WellFormed p.debugAssertions (.unlink h u)) (hp : pad.length = 24) :
    (readUnlink p : Rd Stream Cmd)
      ⟨be32 h.seqnum ++ (be32 h.devid ++ (be32 h.direction ++ (be32 h.ep ++ (be32 u ++
        (pad ++ rest))))), fin⟩
      = .ok (.unlink h u, ⟨rest, fin⟩) := by
  obtain ⟨h1, h2⟩ := hw
  simp only [readUnlink, rd_bind]
  rw [readHeader_fwd p h USBIP_CMD_UNLINK _ fin (by rw [h1]; rfl) h2]
  simp only [Outcome.bind_ok, stream_readU32]
  rw [stream_readExact_append pad _ fin 24 hp]
  rfl

theorem readUnlink_inv {p : Profile} {cmd : Cmd} {s s' : Stream}
    (e : (readUnlink p : Rd Stream Cmd) s = .ok (cmd, s')) :
    ∃ h u pad, cmd = .unlink h u ∧ WellFormed p.debugAssertions cmd ∧ pad.length = 24 ∧
      s = ⟨be32 h.seqnum ++ (be32 h.devid ++ (be32 h.direction ++ (be32 h.ep ++ (be32 u ++
        (pad ++ s'.bytes))))), s'.fin⟩ := by
  simp only [readUnlink, rd_bind, Outcome.bind_eq_ok] at e
  obtain ⟨⟨h, s1⟩, e1, ⟨u, s2⟩, e2, ⟨pad, s3⟩, e3, e4⟩ := e
  simp only [rd_pure, Outcome.ok.injEq, Prod.mk.injEq] at e4
  obtain ⟨e5, e6⟩ := e4
  dsimp only at *
  subst e6
  obtain ⟨i1, i1', i1''⟩ := readHeader_inv e1
  have i2 := stream_readU32_inv e2
  obtain ⟨i3, i3'⟩ := stream_readExact_inv e3
  refine ⟨h, u, pad, e5.symm, ?_, i3, ?_⟩
  · rw [← e5]; exact ⟨by rw [i1]; rfl, i1'⟩
  · rw [i1'', i2, i3']

/-- The version bytes the server accepts. -/
theorem version_accepted (v : UInt16) (hv : v = 0 ∨ v = USBIP_VERSION) :
    ¬ (v ≠ 0 ∧ v ≠ USBIP_VERSION) := by
  rcases hv with h | h <;> simp [h]

theorem readCommand_head (p : Profile) (v c : UInt16) (hv : v = 0 ∨ v = USBIP_VERSION)
    (rest : Bytes) (fin : ErrKind) :
    (readCommand p : Rd Stream Cmd) ⟨be16 v ++ (be16 c ++ rest), fin⟩ =
      (if c = OP_REQ_DEVLIST then (do
          let status ← readU32
          rdAssert p (status == 0)
          return .reqDevlist status : Rd Stream Cmd)
        else if c = OP_REQ_IMPORT then (do
          let status ← readU32
          rdAssert p (status == 0)
          let busid ← readExact 32
          return .reqImport status busid)
        else if c = USBIP_CMD_SUBMIT then readSubmit p
        else if c = USBIP_CMD_UNLINK then readUnlink p
        else rdErr .other) ⟨rest, fin⟩ := by
  simp only [readCommand, rd_bind, stream_readU16, Outcome.bind_ok]
  rw [if_neg (version_accepted v hv)]
  simp only [rd_bind, stream_readU16, Outcome.bind_ok]

/-- Forward direction: every packet for a well-formed command is read as that command. -/
theorem readCommand_fwd (p : Profile) (cmd : Cmd) (consumed rest : Bytes) (fin : ErrKind)
    (hw : WellFormed p.debugAssertions cmd) (hpk : PacketFor cmd consumed) :
    (readCommand p : Rd Stream Cmd) ⟨consumed ++ rest, fin⟩ = .ok (cmd, ⟨rest, fin⟩) := by
  obtain ⟨v, hv, hm⟩ := hpk
  have hv' : ∃ w : UInt16, (w = 0 ∨ w = USBIP_VERSION) ∧ v = be16 w := by
    simp only [List.mem_cons, List.not_mem_nil, or_false] at hv
    rcases hv with h | h
    · exact ⟨0, Or.inl rfl, by rw [h, be16_0]⟩
    · exact ⟨USBIP_VERSION, Or.inr rfl, by rw [h, be16_version]⟩
  obtain ⟨w, hw', rfl⟩ := hv'
  cases cmd with
  | reqDevlist status =>
    simp only at hm
    subst hm
    rw [wire_devlist]
    have : (be16 USBIP_VERSION ++ be16 OP_REQ_DEVLIST ++ be32 status).drop 2
        = be16 OP_REQ_DEVLIST ++ be32 status := by simp [be16]
    rw [this, List.append_assoc, List.append_assoc, readCommand_head p w _ hw', if_pos rfl]
    simp only [rd_bind, stream_readU32, Outcome.bind_ok]
    rw [assert_ok_apply p _ (fun hp => beq_iff_eq.mpr (u32_ext (hw hp)))]
    rfl
  | reqImport status busid =>
    simp only at hm
    subst hm
    rw [wire_import]
    have : (be16 USBIP_VERSION ++ be16 OP_REQ_IMPORT ++ be32 status ++ busid).drop 2
        = be16 OP_REQ_IMPORT ++ (be32 status ++ busid) := by simp [be16]
    rw [this]
    simp only [List.append_assoc]
    rw [readCommand_head p w _ hw', if_neg (by decide), if_pos rfl]
    simp only [rd_bind, stream_readU32, Outcome.bind_ok]
    rw [assert_ok_apply p _ (fun hp => beq_iff_eq.mpr (u32_ext (hw.2 hp)))]
    simp only [Outcome.bind_ok, stream_readExact_append busid rest fin 32 hw.1, rd_pure]
  | submit h a len b n c setup data iso =>
    simp only at hm
    subst hm
    rw [wire_submit, header_cmd_split h USBIP_CMD_SUBMIT (by rw [hw.1]; rfl)]
    simp only [List.append_assoc]
    have : ∀ l : Bytes, (be16 0 ++ l).drop 2 = l := by intro l; simp [be16]
    rw [this]
    simp only [List.append_assoc]
    rw [readCommand_head p w _ hw', if_neg (by decide), if_neg (by decide), if_pos rfl]
    exact readSubmit_fwd p h a len b n c setup data iso rest fin hw
  | unlink h u =>
    simp only at hm
    obtain ⟨pad, hp, rfl⟩ := hm
    rw [wire_unlink, header_cmd_split h USBIP_CMD_UNLINK (by rw [hw.1]; rfl)]
    have : ((be16 0 ++ (be16 USBIP_CMD_UNLINK ++ (be32 h.seqnum ++ (be32 h.devid ++
        (be32 h.direction ++ be32 h.ep)))) ++ be32 u ++ List.replicate 24 0).drop 2).take 22
        = be16 USBIP_CMD_UNLINK ++ (be32 h.seqnum ++ (be32 h.devid ++
        (be32 h.direction ++ (be32 h.ep ++ be32 u)))) := by simp [be16, be32]
    rw [this]
    simp only [List.append_assoc]
    rw [readCommand_head p w _ hw', if_neg (by decide), if_neg (by decide), if_neg (by decide),
      if_pos rfl]
    exact readUnlink_fwd p h u pad rest fin hw hp

/-- Backward direction. -/
theorem readCommand_inv {p : Profile} {cmd : Cmd} {s s' : Stream}
    (e : (readCommand p : Rd Stream Cmd) s = .ok (cmd, s')) :
    WellFormed p.debugAssertions cmd ∧ ∃ consumed, PacketFor cmd consumed ∧
      s = ⟨consumed ++ s'.bytes, s'.fin⟩ := by
  simp only [readCommand, rd_bind, Outcome.bind_eq_ok] at e
  obtain ⟨⟨v, s1⟩, e1, e2⟩ := e
  dsimp only at e2
  have i1 := stream_readU16_inv e1
  split at e2
  · simp at e2
  rename_i hv
  have hv' : be16 v ∈ [[(0 : UInt8), 0], [0x01, 0x11]] := by
    by_cases h0 : v = 0
    · subst h0; rw [be16_0]; simp
    · have : v = USBIP_VERSION := by
        by_cases h1 : v = USBIP_VERSION
        · exact h1
        · exact absurd ⟨h0, h1⟩ hv
      subst this; rw [be16_version]; simp
  simp only [rd_bind, Outcome.bind_eq_ok] at e2
  obtain ⟨⟨c, s2⟩, e3, e4⟩ := e2
  have i2 := stream_readU16_inv e3
  dsimp only at e4
  subst i1
  subst i2
  split at e4
  · rename_i hc
    subst hc
    simp only [rd_bind, Outcome.bind_eq_ok] at e4
    obtain ⟨⟨st, s3⟩, e5, ⟨u, s4⟩, e6, e7⟩ := e4
    simp only [rd_pure, Outcome.ok.injEq, Prod.mk.injEq] at e7
    obtain ⟨rfl, rfl⟩ := e7
    have i5 := stream_readU32_inv e5
    obtain ⟨i6, i6'⟩ := assert_inv e6
    dsimp only at i5 i6 i6'
    subst i6' i5
    refine ⟨fun hp => by simpa using congrArg UInt32.toNat (beq_iff_eq.mp (i6 hp)),
      be16 v ++ (be16 OP_REQ_DEVLIST ++ be32 st), ⟨be16 v, hv', ?_⟩, by simp⟩
    simp only [wire_devlist]
    simp [be16]
  split at e4
  · rename_i hc
    subst hc
    simp only [rd_bind, Outcome.bind_eq_ok] at e4
    obtain ⟨⟨st, s3⟩, e5, ⟨u, s4⟩, e6, ⟨bid, s5⟩, e7, e8⟩ := e4
    simp only [rd_pure, Outcome.ok.injEq, Prod.mk.injEq] at e8
    obtain ⟨rfl, rfl⟩ := e8
    have i5 := stream_readU32_inv e5
    obtain ⟨i6, i6'⟩ := assert_inv e6
    obtain ⟨i7, i7'⟩ := stream_readExact_inv e7
    dsimp only at i5 i6 i6' i7 i7'
    subst i6' i7' i5
    refine ⟨⟨i7, fun hp => by simpa using congrArg UInt32.toNat (beq_iff_eq.mp (i6 hp))⟩,
      be16 v ++ (be16 OP_REQ_IMPORT ++ (be32 st ++ bid)), ⟨be16 v, hv', ?_⟩, by simp⟩
    simp only [wire_import]
    simp [be16]
  split at e4
  · rename_i hc
    subst hc
    obtain ⟨h, a, len, b, n, cc, setup, data, iso, rfl, hw, rfl⟩ := readSubmit_inv e4
    refine ⟨hw, be16 v ++ (be16 USBIP_CMD_SUBMIT ++ (be32 h.seqnum ++ (be32 h.devid ++
      (be32 h.direction ++ (be32 h.ep ++ (be32 a ++ (be32 len ++ (be32 b ++ (be32 n ++ (be32 cc ++
      (setup ++ (data ++ iso)))))))))))), ⟨be16 v, hv', ?_⟩, by simp⟩
    simp only [wire_submit, header_cmd_split h USBIP_CMD_SUBMIT (by rw [hw.1]; rfl)]
    have : ∀ l : Bytes, (be16 0 ++ l).drop 2 = l := by intro l; simp [be16]
    simp only [List.append_assoc, this]
  split at e4
  · rename_i hc
    subst hc
    obtain ⟨h, u, pad, rfl, hw, hp, rfl⟩ := readUnlink_inv e4
    refine ⟨hw, be16 v ++ (be16 USBIP_CMD_UNLINK ++ (be32 h.seqnum ++ (be32 h.devid ++
      (be32 h.direction ++ (be32 h.ep ++ (be32 u ++ pad)))))),
      ⟨be16 v, hv', ⟨pad, hp, ?_⟩⟩, by simp⟩
    simp only [wire_unlink, header_cmd_split h USBIP_CMD_UNLINK (by rw [hw.1]; rfl)]
    simp [be16, be32]
  · simp at e4

/-- Encoding a command gives the documented bytes. -/
theorem toBytes_wire (p : Profile) (cmd : Cmd) (hw : WellFormed p.debugAssertions cmd) :
    cmd.toBytes p = .ok (wireCmd cmd) := by
  cases cmd with
  | reqDevlist st => rw [wire_devlist]; rfl
  | reqImport st b => rw [wire_import]; rfl
  | submit h a len b n c setup data iso =>
    rw [wire_submit]
    simp only [Cmd.toBytes]
    rw [debugAssert_true]
    · rfl
    · obtain ⟨h1, h2, h3, h4, h5⟩ := hw
      by_cases hd : h.direction.toNat = 0
      · rw [if_neg (by omega)] at h4
        rw [(dirOut_iff _).mpr hd]
        have : len = asU32 data.length := by
          apply u32_ext
          have := u32_lt len
          simp only [asU32, UInt32.toNat_ofNat', h4]
          omega
        simp [← this]
      · have : h.direction ≠ dirOut := fun hh => hd ((dirOut_iff _).mp hh)
        simp [this]
  | unlink h u => rw [wire_unlink]; rfl

theorem packetFor_wire {strict : Bool} (cmd : Cmd) (hw : WellFormed strict cmd) :
    PacketFor cmd (wireCmd cmd) := by
  cases cmd with
  | reqDevlist st =>
    refine ⟨[0x01, 0x11], by simp, ?_⟩
    simp [wire_devlist, be16_version]
  | reqImport st b =>
    refine ⟨[0x01, 0x11], by simp, ?_⟩
    simp [wire_import, be16_version]
  | submit h a len b n c setup data iso =>
    refine ⟨[0, 0], by simp, ?_⟩
    simp [wire_submit, header_cmd_split h USBIP_CMD_SUBMIT (by rw [hw.1]; rfl), be16_0]
  | unlink h u =>
    refine ⟨[0, 0], by simp, List.replicate 24 0, by simp, ?_⟩
    simp [wire_unlink, header_cmd_split h USBIP_CMD_UNLINK (by rw [hw.1]; rfl), be16, be32]

end Usbip
