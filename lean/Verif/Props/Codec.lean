import Verif.Lemmas.Frame
import Verif.Lemmas.Client
import Verif.Spec.Samples
/-!
# Properties of the wire format: C01–C06, C08–C11
-/

namespace Usbip
open Spec Samples

/-! ## C01 -/

/-- C01: `to_bytes` of a well-formed command is the documented packet, and reading a socket that
delivers it followed by anything returns the command and leaves exactly what followed. -/
theorem C01_roundtrip (p : Profile) (cmd : Cmd) (rest : Bytes) (fin : ErrKind)
    (hw : WellFormed p.debugAssertions cmd) :
    ∃ bs, cmd.toBytes p = .ok bs ∧ bs = wireCmd cmd ∧
      (readCommand p : Rd Stream Cmd) ⟨bs ++ rest, fin⟩ = .ok (cmd, ⟨rest, fin⟩) :=
  ⟨wireCmd cmd, toBytes_wire p cmd hw, rfl,
    readCommand_fwd p cmd _ rest fin hw (packetFor_wire cmd hw)⟩

/-- C01 for the header alone: `from_bytes` inverts `to_bytes`. -/
theorem C01_header_roundtrip (p : Profile) (h : Header)
    (hd : p.debugAssertions = true → h.direction.toNat ≤ 1) :
    Header.fromBytes p h.toBytes = .ok h := by
  have h1 : ∀ x : UInt32, ∀ b : Bytes, be32At (be32 x ++ b) 0 = x := by
    intro x b; simp only [be32At, be32, List.drop_zero]; exact ofBe32_be32 x
  have h2 : ∀ x : UInt32, ∀ b : Bytes, ∀ i, be32At (be32 x ++ b) (i + 4) = be32At b i := by
    intro x b i; simp [be32At, be32]
  have e : h.toBytes = be32 h.command ++ (be32 h.seqnum ++ (be32 h.devid ++ (be32 h.direction ++
      (be32 h.ep ++ [])))) := by simp [Header.toBytes]
  rw [e]
  simp only [Header.fromBytes]
  rw [h1, h2 _ _ 0, h1, h2 _ _ 4, h2 _ _ 0, h1, h2 _ _ 8, h2 _ _ 4, h2 _ _ 0, h1, h2 _ _ 12,
    h2 _ _ 8, h2 _ _ 4, h2 _ _ 0, h1]
  rw [debugAssert_of p (fun hp => (dir_and_one _).mpr (hd hp))]
  rfl

example : WellFormed true cmdOut ∧ WellFormed true cmdIso ∧ WellFormed true cmdImport ∧
    WellFormed true cmdUnlink := by decide

example : cmdOut.toBytes dev = .ok
    ([0,0,0,1, 0,0,0,7, 0,1,0,2, 0,0,0,0, 0,0,0,2, 0,0,0,0, 0,0,0,3, 0,0,0,0, 0,0,0,0, 0,0,0,0,
      0,0,0,0,0,0,0,0, 10,20,30]) := by decide

/-! ## C02 -/

/-- C02: any sequence of well-formed commands written back to back is read back as exactly that
sequence; whatever follows is untouched, and if nothing follows the next read reports the end. -/
theorem C02_pipeline (p : Profile) (cmds : List Cmd) (tail : Bytes) (fin : ErrKind)
    (hw : ∀ c ∈ cmds, WellFormed p.debugAssertions c) :
    readMany p cmds.length ⟨cmds.flatMap wireCmd ++ tail, fin⟩ = .ok (cmds, ⟨tail, fin⟩) ∧
    (∀ c ∈ cmds, c.toBytes p = .ok (wireCmd c)) ∧
    (readCommand p : Rd Stream Cmd) ⟨[], fin⟩ = .err fin := by
  refine ⟨?_, fun c hc => toBytes_wire p c (hw c hc), ?_⟩
  · induction cmds with
    | nil => rfl
    | cons c cs ih =>
      have ih := ih (fun x hx => hw x (by simp [hx]))
      have hc := hw c (by simp)
      simp only [List.length_cons, readMany, List.flatMap_cons, List.append_assoc]
      rw [readCommand_fwd p c _ _ fin hc (packetFor_wire c hc)]
      simp only [Outcome.bind_ok]
      rw [ih]
      rfl
  · rfl

example : ∀ c ∈ [cmdImport, cmdOut, cmdIso, cmdUnlink], WellFormed dev.debugAssertions c := by
  decide

/-! ## C03 -/

/-- C03: what a read returns on a segmented socket, and the bytes it leaves, are what it returns
and leaves on the unsegmented stream. -/
theorem C03_segmentation (p : Profile) (s : Segs) :
    ((readCommand p : Rd Segs Cmd) s >>= fun r =>
        .ok (r.1, (⟨r.2.segs.flatten, r.2.fin⟩ : Stream)))
      = (readCommand p : Rd Stream Cmd) ⟨s.segs.flatten, s.fin⟩ :=
  sim_readCommand p s

/-- C03, as independence: two ways of splitting the same bytes give the same result and leave the
same bytes. -/
theorem C03_independent (p : Profile) (s t : Segs) (hb : s.segs.flatten = t.segs.flatten)
    (hf : s.fin = t.fin) :
    ((readCommand p : Rd Segs Cmd) s >>= fun r => .ok (r.1, r.2.segs.flatten, r.2.fin)) =
    ((readCommand p : Rd Segs Cmd) t >>= fun r => .ok (r.1, r.2.segs.flatten, r.2.fin)) := by
  have h : ∀ u : Segs, ((readCommand p : Rd Segs Cmd) u >>= fun r =>
      .ok (r.1, r.2.segs.flatten, r.2.fin)) =
      ((readCommand p : Rd Stream Cmd) ⟨u.segs.flatten, u.fin⟩ >>= fun r =>
        .ok (r.1, r.2.bytes, r.2.fin)) := by
    intro u
    rw [← C03_segmentation]
    cases (readCommand p : Rd Segs Cmd) u <;> rfl
  rw [h s, h t, hb, hf]

/-- A command split into one-byte segments with an empty poll in between is read. -/
example : ((readCommand dev : Rd Segs Cmd)
    ⟨[[1], [], [0x11, 0x80], [5, 0, 0], [0], [0, 9]], .unexpectedEof⟩ >>= fun r =>
      .ok (r.1, r.2.segs.flatten)) = .ok (.reqDevlist 0, [9]) := by
  rw [show (fun r : Cmd × Segs => Outcome.ok (r.1, r.2.segs.flatten)) =
    (fun r => (Outcome.ok (r.1, (⟨r.2.segs.flatten, r.2.fin⟩ : Stream)) >>= fun q =>
      Outcome.ok (q.1, q.2.bytes))) from rfl]
  have := C03_segmentation dev ⟨[[1], [], [0x11, 0x80], [5, 0, 0], [0], [0, 9]], .unexpectedEof⟩
  have h2 : ∀ (x : Outcome (Cmd × Segs)), (x >>= fun r => (Outcome.ok (r.1,
      (⟨r.2.segs.flatten, r.2.fin⟩ : Stream)) >>= fun q => Outcome.ok (q.1, q.2.bytes))) =
      ((x >>= fun r => Outcome.ok (r.1, (⟨r.2.segs.flatten, r.2.fin⟩ : Stream))) >>= fun q =>
        Outcome.ok (q.1, q.2.bytes)) := by intro x; cases x <;> rfl
  rw [h2, this]
  rfl

/-! ## C04 -/

/-- C04: a packet is turned into a command only if its first two bytes are version 0 or 0x0111
and the next two one of the four request codes. -/
theorem C04_only_known (p : Profile) (bs : Bytes) (fin : ErrKind) (cmd : Cmd) (s' : Stream)
    (h : (readCommand p : Rd Stream Cmd) ⟨bs, fin⟩ = .ok (cmd, s')) :
    bs.take 2 ∈ [[0, 0], [0x01, 0x11]] ∧
    (bs.drop 2).take 2 ∈ [[0x80, 0x05], [0x80, 0x03], [0, 1], [0, 2]] := by
  obtain ⟨hw, consumed, ⟨v, hv, hm⟩, hs⟩ := readCommand_inv h
  simp only [Stream.mk.injEq] at hs
  obtain ⟨rfl, _⟩ := hs
  have hvl : v.length = 2 := by
    simp only [List.mem_cons, List.not_mem_nil, or_false] at hv
    rcases hv with rfl | rfl <;> rfl
  obtain ⟨t, ht, htc⟩ : ∃ t, consumed = v ++ t ∧
      t.take 2 ∈ [[(0x80 : UInt8), 0x05], [0x80, 0x03], [0, 1], [0, 2]] ∧ 2 ≤ t.length := by
    cases cmd with
    | reqDevlist st =>
      refine ⟨_, hm, ?_⟩
      rw [wire_devlist, be16_version, be16_devlist]
      simp
    | reqImport st b =>
      refine ⟨_, hm, ?_⟩
      rw [wire_import, be16_version, be16_import]
      simp
    | submit hd a len b n c setup data iso =>
      refine ⟨_, hm, ?_⟩
      rw [wire_submit, header_cmd_split hd USBIP_CMD_SUBMIT (by rw [hw.1]; rfl), be16_0, be16_submit]
      simp
    | unlink hd u =>
      obtain ⟨pad, hp, hc⟩ := hm
      refine ⟨_, by rw [List.append_assoc] at hc; exact hc, ?_⟩
      rw [wire_unlink, header_cmd_split hd USBIP_CMD_UNLINK (by rw [hw.1]; rfl), be16_0, be16_unlink]
      simp
  subst ht
  rw [List.append_assoc, List.take_append_of_le_length (by omega),
    List.take_of_length_le (by omega), List.drop_append_of_le_length (by omega),
    List.drop_of_length_le (by omega), List.nil_append,
    List.take_append_of_le_length htc.2]
  exact ⟨hv, htc.1⟩

/-- C04: every other packet whose first four bytes arrive is refused with an error. -/
theorem C04_refused (p : Profile) (a b c d : UInt8) (rest : Bytes) (fin : ErrKind)
    (h : ¬ ([a, b] ∈ [[0, 0], [0x01, 0x11]] ∧
      [c, d] ∈ [[0x80, 0x05], [0x80, 0x03], [0, 1], [0, 2]])) :
    (readCommand p : Rd Stream Cmd) ⟨a :: b :: c :: d :: rest, fin⟩ = .err .other := by
  have e : a :: b :: c :: d :: rest = be16 (ofBe16 a b) ++ (be16 (ofBe16 c d) ++ rest) := by
    rw [be16_ofBe16, be16_ofBe16]; rfl
  have hne : ∀ x y : UInt8, ∀ k : UInt16, ¬ [x, y] = be16 k → ofBe16 x y ≠ k := by
    intro x y k hk hh
    exact hk (by rw [← hh, be16_ofBe16])
  by_cases hv : [a, b] ∈ [[0, 0], [0x01, 0x11]]
  · have hc : ¬ [c, d] ∈ [[0x80, 0x05], [0x80, 0x03], [0, 1], [(0 : UInt8), 2]] := fun hc => h ⟨hv, hc⟩
    have hv' : ofBe16 a b = 0 ∨ ofBe16 a b = USBIP_VERSION := by
      simp only [List.mem_cons, List.not_mem_nil, or_false, List.cons.injEq, and_true] at hv
      rcases hv with ⟨rfl, rfl⟩ | ⟨rfl, rfl⟩
      · left; decide
      · right; decide
    simp only [List.mem_cons, List.not_mem_nil, or_false, not_or] at hc
    rw [e, readCommand_head p _ _ hv', if_neg (hne _ _ _ (by rw [be16_devlist]; exact hc.1)),
      if_neg (hne _ _ _ (by rw [be16_import]; exact hc.2.1)),
      if_neg (hne _ _ _ (by rw [be16_submit]; exact hc.2.2.1)),
      if_neg (hne _ _ _ (by rw [be16_unlink]; exact hc.2.2.2))]
    rfl
  · simp only [List.mem_cons, List.not_mem_nil, or_false, not_or] at hv
    rw [e]
    simp only [readCommand, rd_bind, stream_readU16, Outcome.bind_ok]
    rw [if_pos ⟨hne _ _ _ (by rw [be16_0]; exact hv.1), hne _ _ _ (by rw [be16_version]; exact hv.2)⟩]
    rfl

/-- Version 0x0106, and code 0x8004 under the right version. -/
example : ¬ ([(1 : UInt8), 6] ∈ [[0, 0], [0x01, 0x11]] ∧
      [(0x80 : UInt8), 5] ∈ [[0x80, 0x05], [0x80, 0x03], [0, 1], [0, 2]]) ∧
    ¬ ([(1 : UInt8), 0x11] ∈ [[0, 0], [0x01, 0x11]] ∧
      [(0x80 : UInt8), 4] ∈ [[0x80, 0x05], [0x80, 0x03], [0, 1], [0, 2]]) := by decide

/-! ## C05 -/

/-- C05: if the stream ends inside a packet of a well-formed command, the read reports the way
the stream ended (UnexpectedEof for an orderly close) and yields no command. -/
theorem C05_truncated (p : Profile) (cmd : Cmd) (hw : WellFormed p.debugAssertions cmd)
    (packet pre post : Bytes) (fin : ErrKind) (hpk : PacketFor cmd packet)
    (hsplit : packet = pre ++ post) (hne : post ≠ []) :
    (readCommand p : Rd Stream Cmd) ⟨pre, fin⟩ = .err fin := by
  have h := readCommand_fwd p cmd packet [] fin hw hpk
  obtain ⟨used, hs, -, ht⟩ := framed_readCommand p _ _ _ h
  simp only [List.append_nil, Stream.mk.injEq, and_true] at hs
  exact ht pre post fin (hs ▸ hsplit) hne

/-- C05 for the bytes `to_bytes` produces. -/
theorem C05_truncated_encoding (p : Profile) (cmd : Cmd) (hw : WellFormed p.debugAssertions cmd)
    (bs : Bytes) (hbs : cmd.toBytes p = .ok bs) (n : Nat) (hn : n < bs.length) (fin : ErrKind) :
    (readCommand p : Rd Stream Cmd) ⟨bs.take n, fin⟩ = .err fin := by
  rw [toBytes_wire p cmd hw, Outcome.ok.injEq] at hbs
  subst hbs
  refine C05_truncated p cmd hw _ (List.take n _) (List.drop n _) fin (packetFor_wire cmd hw)
    (List.take_append_drop n _).symm ?_
  intro h
  have := congrArg List.length h
  rw [List.length_drop, List.length_nil] at this
  omega

/-- The OUT submit with its last payload byte missing. -/
example : (readCommand dev : Rd Stream Cmd) ⟨(wireCmd cmdOut).take 50, .unexpectedEof⟩
    = .err .unexpectedEof :=
  C05_truncated_encoding dev cmdOut (by decide) _
    (toBytes_wire _ _ (by decide)) 50 (by decide) _

/-! ## C06 -/

/-- C06: the reader returns a command exactly on the packets of that command: the documented
layout up to the two version bytes and an unlink's padding, with the payload and ISO descriptors
of the declared lengths; and it consumes exactly that packet. -/
theorem C06_canonical (p : Profile) (input rest : Bytes) (fin : ErrKind) (cmd : Cmd) :
    (readCommand p : Rd Stream Cmd) ⟨input, fin⟩ = .ok (cmd, ⟨rest, fin⟩) ↔
    ∃ consumed, input = consumed ++ rest ∧ PacketFor cmd consumed ∧
      WellFormed p.debugAssertions cmd := by
  constructor
  · intro h
    obtain ⟨hw, consumed, hpk, hs⟩ := readCommand_inv h
    simp only [Stream.mk.injEq, and_true] at hs
    exact ⟨consumed, hs, hpk, hw⟩
  · rintro ⟨consumed, rfl, hpk, hw⟩
    exact readCommand_fwd p cmd consumed rest fin hw hpk

/-- C06: reading never changes how the stream ends (so the previous theorem covers every
successful read). -/
theorem C06_end_kept (p : Profile) (s s' : Stream) (cmd : Cmd)
    (h : (readCommand p : Rd Stream Cmd) s = .ok (cmd, s')) : s'.fin = s.fin := by
  obtain ⟨_, _, _, hs⟩ := readCommand_inv h
  rw [hs]

/-- C06: the length of a packet is determined by what it declares. -/
theorem C06_length (p : Profile) (s s' : Stream) (h : Header) (a len b n c : UInt32)
    (setup data iso : Bytes)
    (hr : (readCommand p : Rd Stream Cmd) s = .ok (.submit h a len b n c setup data iso, s')) :
    s.bytes.length = 48 + data.length + iso.length + s'.bytes.length ∧
    data.length = (if h.direction.toNat = 1 then 0 else len.toNat) ∧
    iso.length = (if n.toNat = 0 ∨ n.toNat = 4294967295 then 0 else 16 * n.toNat) := by
  obtain ⟨hw, consumed, ⟨v, hv, hm⟩, hs⟩ := readCommand_inv hr
  have hvl : v.length = 2 := by
    simp only [List.mem_cons, List.not_mem_nil, or_false] at hv
    rcases hv with rfl | rfl <;> rfl
  obtain ⟨h1, h2, h3, h4, h5⟩ := hw
  simp only at hm
  refine ⟨?_, h4, ?_⟩
  · rw [hs, hm, wire_submit]
    simp [hvl, h3]
    omega
  · rw [h5]
    unfold hasIso
    by_cases h0 : n.toNat = 0 <;> by_cases h1 : n.toNat = 4294967295 <;> simp [h0, h1]

example : PacketFor cmdUnlink ([1, 0x11, 0, 2, 0,0,0,9, 0,1,0,2, 0,0,0,0, 0,0,0,0, 0,0,0,7]
    ++ List.replicate 24 0xEE) :=
  ⟨[1, 0x11], by simp, List.replicate 24 0xEE, by simp, by decide⟩

/-! ## C08 -/

/-- C08 (partial: without debug assertions it needs that an OUT reply carries no data, see
`C08_out_data_desync`): the client recovers header, status, lengths and data of every submit and
unlink reply and is positioned exactly at the next reply. -/
theorem C08_reply_decodes_partial (p : Profile) (r : Resp) (bs rest : Bytes)
    (h : r.toBytes p = .ok bs) (hr : Representable r) :
    (∀ hd st al sf np ec buf iso, r = .retSubmit hd st al sf np ec buf iso →
      decodeSubmit (bs ++ rest) = some (replyInfo r, rest)) ∧
    (∀ hd st, r = .retUnlink hd st → decodeUnlink (bs ++ rest) = some (replyInfo r, rest)) := by
  have := decodeReply_bytes r bs rest h hr
  refine ⟨?_, ?_⟩
  · rintro hd st al sf np ec buf iso rfl; exact this
  · rintro hd st rfl; exact this

/-- C08 for builds with debug assertions: every submit reply the library constructs and manages
to serialise (less than 4 GiB of data) is decoded, whatever its direction. -/
theorem C08_checked_build (p : Profile) (hp : p.debugAssertions = true) (hd : Header)
    (sf : UInt32) (buf bs rest : Bytes) (hlen : buf.length < 4294967296)
    (h : (usbipRetSubmitSuccess hd sf 0 buf []).toBytes p = .ok bs) :
    decodeSubmit (bs ++ rest) = some (.submit (hdrInfo hd) 0 buf.length sf.toNat 0 0 buf [], rest) := by
  have h' := h
  simp only [usbipRetSubmitSuccess, Resp.toBytes, Outcome.bind_eq_ok] at h
  obtain ⟨_, h1, _, h2, _⟩ := h
  have h1 := debugAssert_ok h1 hp
  have h2 := debugAssert_ok h2 hp
  have hl : (asU32 buf.length).toNat = buf.length := by
    simp only [asU32, UInt32.toNat_ofNat']; omega
  have hrep : Representable (usbipRetSubmitSuccess hd sf 0 buf []) := by
    refine ⟨by rw [beq_iff_eq.mp h1]; rfl, ?_, rfl⟩
    by_cases hd1 : hd.direction.toNat = 1
    · rw [if_pos hd1, hl]
    · rw [if_neg hd1]
      rw [if_neg (fun hh => hd1 ((dirIn_iff _).mp hh))] at h2
      rw [← hl, beq_iff_eq.mp h2]; rfl
  have := (C08_reply_decodes_partial p _ bs rest h' hrep).1 _ _ _ _ _ _ _ _ rfl
  rw [this]
  simp [replyInfo, usbipRetSubmitSuccess, hl]

/-- C08 for failed submits, and for unlinks that succeed or fail, all builds: whatever header the client sent. -/
theorem C08_fail_and_unlink (p : Profile) (hd : Header) (rest : Bytes) :
    (∃ bs, (usbipRetSubmitFail { hd with command := 3 }).toBytes p = .ok bs ∧
      decodeSubmit (bs ++ rest) = some (.submit ⟨3, hd.seqnum.toNat, hd.devid.toNat,
        hd.direction.toNat, hd.ep.toNat⟩ 1 0 0 0 0 [] [], rest)) ∧
    (∃ bs, (usbipRetUnlinkSuccess { hd with command := 4 }).toBytes p = .ok bs ∧
      decodeUnlink (bs ++ rest) = some (.unlink ⟨4, hd.seqnum.toNat, hd.devid.toNat,
        hd.direction.toNat, hd.ep.toNat⟩ 0, rest)) ∧
    (∃ bs, (usbipRetUnlinkFail { hd with command := 4 }).toBytes p = .ok bs ∧
      decodeUnlink (bs ++ rest) = some (.unlink ⟨4, hd.seqnum.toNat, hd.devid.toNat,
        hd.direction.toNat, hd.ep.toNat⟩ 1, rest)) := by
  have hz : (0 : UInt32).toNat = 0 := rfl
  refine ⟨?_, ?_, ?_⟩
  · have hb : ∃ bs, (usbipRetSubmitFail { hd with command := 3 }).toBytes p = .ok bs := by
      simp only [usbipRetSubmitFail, Resp.toBytes]
      rw [debugAssert_true p (by decide), Outcome.bind_ok, debugAssert_true p (by simp [asU32])]
      exact ⟨_, rfl⟩
    obtain ⟨bs, hb⟩ := hb
    refine ⟨bs, hb, ?_⟩
    exact (C08_reply_decodes_partial p _ bs rest hb
      ⟨rfl, by simp, rfl⟩).1 _ _ _ _ _ _ _ _ rfl
  · refine ⟨_, by
      simp only [usbipRetUnlinkSuccess, Resp.toBytes]
      rw [debugAssert_true p (by decide)]; rfl, ?_⟩
    exact decodeUnlink_bytes { hd with command := 4 } 0 rest rfl
  · refine ⟨_, by
      simp only [usbipRetUnlinkFail, Resp.toBytes]
      rw [debugAssert_true p (by decide)]; rfl, ?_⟩
    exact decodeUnlink_bytes { hd with command := 4 } 1 rest rfl

/-- How many bytes of data a client takes from a reply: none unless it asked for an IN transfer, and no more
than a 32-bit length can say. -/
def taken (hd : Header) (buf : Bytes) : Nat := if hd.direction.toNat = 1 then buf.length % 4294967296 else 0

/-- C08, exactly, for every successful submit reply the library constructs and manages to serialise, in
all builds: the client takes `taken` bytes as the data, and what is left of the data as the beginning of the
next reply. -/
theorem C08_exact (p : Profile) (hd : Header) (hc : hd.command.toNat = 3) (sf : UInt32) (buf bs rest : Bytes)
    (h : (usbipRetSubmitSuccess hd sf 0 buf []).toBytes p = .ok bs) :
    decodeSubmit (bs ++ rest) = some (.submit (hdrInfo hd) 0 (buf.length % 4294967296) sf.toNat 0 0
      (buf.take (taken hd buf)) [], buf.drop (taken hd buf) ++ rest) := by
  have hl : (asU32 buf.length).toNat = buf.length % 4294967296 := by
    simp only [asU32, UInt32.toNat_ofNat']
  have hle : taken hd buf ≤ buf.length := by
    unfold taken
    split
    · exact Nat.mod_le _ _
    · omega
  have hrep : Representable (.retSubmit hd 0 (asU32 buf.length) sf 0 0 (buf.take (taken hd buf)) []) := by
    refine ⟨hc, ?_, rfl⟩
    rw [List.length_take, Nat.min_eq_left hle, hl]
    rfl
  have := decodeSubmit_bytes hd 0 (asU32 buf.length) sf 0 0 _ [] (buf.drop (taken hd buf) ++ rest) hrep
  simp only [usbipRetSubmitSuccess, Resp.toBytes, Outcome.bind_eq_ok] at h
  obtain ⟨_, _, _, _, h⟩ := h
  replace h := Outcome.ok.inj h
  rw [← h]
  rw [List.append_nil, List.append_assoc _ (List.take _ buf), ← List.append_assoc (List.take _ buf), List.take_append_drop] at this
  simp only [List.append_assoc, replyInfo, hl] at this ⊢
  exact this

/-- C08: exactly the successful replies that the client decodes: IN replies of less than 4 GiB, and replies
without data. -/
theorem C08_when_partial (p : Profile) (hd : Header) (hc : hd.command.toNat = 3) (sf : UInt32) (buf bs : Bytes)
    (h : (usbipRetSubmitSuccess hd sf 0 buf []).toBytes p = .ok bs) :
    (∀ rest, decodeSubmit (bs ++ rest) =
      some (replyInfo (usbipRetSubmitSuccess hd sf 0 buf []), rest)) ↔
    (hd.direction.toNat = 1 ∧ buf.length < 4294967296) ∨ buf = [] := by
  have hl : (asU32 buf.length).toNat = buf.length % 4294967296 := by
    simp only [asU32, UInt32.toNat_ofNat']
  simp only [C08_exact p hd hc sf buf bs _ h, usbipRetSubmitSuccess, replyInfo, hl]
  have key : taken hd buf = buf.length ↔ (hd.direction.toNat = 1 ∧ buf.length < 4294967296) ∨ buf = [] := by
    unfold taken
    rw [← List.length_eq_zero_iff]
    split <;> omega
  rw [← key]
  constructor
  · intro h
    have := h []
    simp only [Option.some.injEq, Prod.mk.injEq, Reply.submit.injEq, List.append_nil, List.drop_eq_nil_iff] at this
    have h1 := congrArg List.length this.1.2.2.2.2.2.2.1
    have hle : taken hd buf ≤ buf.length := by
      unfold taken
      split
      · exact Nat.mod_le _ _
      · omega
    rw [List.length_take, Nat.min_eq_left hle] at h1
    exact h1
  · intro h rest
    rw [h, List.take_length, List.drop_length]
    rfl

/-- Why C08 is partial: without debug assertions, a reply to an OUT request that carries data
(which `SET_CONFIGURATION` with wLength > 0 produces, see C21) leaves the client one byte off. -/
theorem C08_out_data_desync (rest : Bytes) :
    ∃ bs, (usbipRetSubmitSuccess ⟨3, 1, 1, 0, 0⟩ 0 0 [1] []).toBytes release = .ok bs ∧
      decodeSubmit (bs ++ rest)
        = some (.submit ⟨3, 1, 1, 0, 0⟩ 0 1 0 0 0 [] [], 1 :: rest) := by
  refine ⟨_, rfl, ?_⟩
  have := decodeSubmit_bytes ⟨3, 1, 1, 0, 0⟩ 0 1 0 0 0 [] [] (1 :: rest) ⟨rfl, rfl, rfl⟩
  rw [List.append_nil, List.append_nil] at this
  rw [List.append_nil, List.append_assoc]
  exact this

/-- ... and with debug assertions that reply makes the connection's task panic. -/
theorem C08_out_data_panics :
    (usbipRetSubmitSuccess ⟨3, 1, 1, 0, 0⟩ 0 0 [1] []).toBytes dev = .panic := by decide

example : Representable (.retSubmit ⟨3, 8, 65538, 1, 1⟩ 0 3 0 0 0 [1, 2, 3] []) ∧
    Representable (.retUnlink ⟨4, 8, 65538, 1, 1⟩ 0) := by
  unfold Representable
  decide

/-! ## C09, C10 -/

/-- C09: the client recovers every device's fields and interface classes, in order, and ends
exactly at the end of the reply. -/
theorem C09_devlist_decodes (p : Profile) (ds : List Device) (bs rest : Bytes)
    (h : (opRepDevlist ds).toBytes p = .ok bs) (hn : ds.length < 4294967296)
    (hi : ∀ d ∈ ds, d.interfaces.length ≤ 255) :
    decodeDevlist (bs ++ rest) =
      some (.devlist 0 (ds.map (fun d => (devInfo d, ifInfo d))), rest) := by
  have hl : (asU32 ds.length).toNat = ds.length := by
    simp only [asU32, UInt32.toNat_ofNat']; omega
  exact decodeDevlist_bytes 0 _ ds bs rest h ⟨hl, hi⟩

theorem natBE_bound (bs : Bytes) : natBE bs < 256 ^ bs.length := by
  have : ∀ (bs : Bytes) (a : Nat), bs.foldl (fun a b => a * 256 + b.toNat) a < (a + 1) * 256 ^ bs.length := by
    intro bs
    induction bs with
    | nil => intro a; simp
    | cons b bs ih =>
      intro a
      have h1 := ih (a * 256 + b.toNat)
      have h2 : (a * 256 + b.toNat + 1) * 256 ^ bs.length ≤ ((a + 1) * 256) * 256 ^ bs.length :=
        Nat.mul_le_mul_right _ (by have := b.toNat_lt; omega)
      rw [List.foldl_cons, List.length_cons, Nat.pow_succ, Nat.mul_comm (256 ^ bs.length) 256, ← Nat.mul_assoc]
      omega
  simpa [natBE] using this bs 0

theorem decodeIfs_length : ∀ (n : Nat) (bs : Bytes) (is : List (Nat × Nat × Nat)) (rest : Bytes),
    decodeIfs n bs = some (is, rest) → is.length = n := by
  intro n
  induction n with
  | zero =>
    intro bs is rest h
    simp only [decodeIfs, Option.some.injEq, Prod.mk.injEq] at h
    rw [← h.1]; rfl
  | succ n ih =>
    intro bs is rest h
    simp only [decodeIfs, Option.bind_eq_bind, Option.bind_eq_some_iff] at h
    obtain ⟨⟨r, r1⟩, _, ⟨js, r2⟩, h2, h3⟩ := h
    simp only [Option.pure_def, Option.some.injEq, Prod.mk.injEq] at h3
    rw [← h3.1, List.length_cons, ih _ _ _ h2]

theorem decodeEntries_length : ∀ (n : Nat) (bs : Bytes) (es : List (DevInfo × List (Nat × Nat × Nat))) (rest : Bytes),
    decodeEntries n bs = some (es, rest) → es.length = n ∧ ∀ e ∈ es, e.2.length = e.1.numInterfaces := by
  intro n
  induction n with
  | zero =>
    intro bs es rest h
    simp only [decodeEntries, Option.some.injEq, Prod.mk.injEq] at h
    rw [← h.1]; exact ⟨rfl, by simp⟩
  | succ n ih =>
    intro bs es rest h
    simp only [decodeEntries, decodeEntry, Option.bind_eq_bind, Option.bind_eq_some_iff] at h
    obtain ⟨⟨e, r1⟩, ⟨⟨d, q1⟩, _, ⟨is, q2⟩, h1, h2⟩, ⟨fs, r2⟩, h3, h4⟩ := h
    simp only [Option.pure_def, Option.some.injEq, Prod.mk.injEq] at h2 h4
    obtain ⟨h5, h6⟩ := ih _ _ _ h3
    rw [← h4.1]
    refine ⟨by rw [List.length_cons, h5], fun x hx => ?_⟩
    rcases List.mem_cons.mp hx with rfl | hx
    · rw [← h2.1]; exact decodeIfs_length _ _ _ _ h1
    · exact h6 x hx

/-- C09, exactly: the client recovers the list if and only if the number of devices fits its four bytes and no device has
more than 255 interfaces. -/
theorem C09_when (p : Profile) (ds : List Device) (bs : Bytes) (h : (opRepDevlist ds).toBytes p = .ok bs) :
    (∀ rest, decodeDevlist (bs ++ rest) = some (.devlist 0 (ds.map (fun d => (devInfo d, ifInfo d))), rest)) ↔
    ds.length < 4294967296 ∧ ∀ d ∈ ds, d.interfaces.length ≤ 255 := by
  refine ⟨fun hd => ?_, fun ⟨hn, hi⟩ rest => C09_devlist_decodes p ds bs rest h hn hi⟩
  have hd := hd []
  simp only [decodeDevlist, Option.bind_eq_bind, Option.bind_eq_some_iff] at hd
  obtain ⟨⟨r, r1⟩, h1, h2⟩ := hd
  split at h2
  · simp only [Option.bind_eq_some_iff] at h2
    obtain ⟨⟨es, r2⟩, h3, h4⟩ := h2
    simp only [Option.pure_def, Option.some.injEq, Prod.mk.injEq, Reply.devlist.injEq] at h4
    obtain ⟨h5, h6⟩ := decodeEntries_length _ _ _ _ h3
    have he := h4.1.2
    subst he
    constructor
    · rw [List.length_map] at h5
      rw [h5]
      have := natBE_bound ((r.drop 8).take 4)
      have h7 : ((r.drop 8).take 4).length ≤ 4 := by rw [List.length_take]; omega
      exact Nat.lt_of_lt_of_le this (Nat.pow_le_pow_right (by decide) h7)
    · intro d hm
      have := h6 _ (List.mem_map.mpr ⟨d, hm, rfl⟩)
      simp only [ifInfo, devInfo, List.length_map] at this
      omega
  · simp at h2

/-- A device with 256 interfaces: the client takes it for one without any, and the list for ended where 1024 bytes are still
to come. -/
example : ∃ bs, (opRepDevlist [{ devA with interfaces := List.replicate 256 intf1 }]).toBytes release = .ok bs ∧
    (decodeDevlist bs).map (fun r => r.2.length) = some 1024 := ⟨_, rfl, by decide +kernel⟩

/-- C09: serialising the list succeeds in every build when paths and bus ids fit their fields,
and always in builds without debug assertions. -/
theorem C09_devlist_serialises (p : Profile) (ds : List Device)
    (h : p.debugAssertions = true → ∀ d ∈ ds, d.path.length ≤ 256 ∧ d.busId.length ≤ 32) :
    ∃ bs, (opRepDevlist ds).toBytes p = .ok bs := by
  have : ∃ bs, devlistBytes p ds = .ok bs := by
    induction ds with
    | nil => exact ⟨[], rfl⟩
    | cons d ds ih =>
      obtain ⟨bs, hbs⟩ := ih (fun hp x hx => h hp x (by simp [hx]))
      refine ⟨recordBytes d ++ ifBytes d.interfaces ++ bs, ?_⟩
      simp only [devlistBytes, Device.toBytesWithInterfaces]
      rw [toBytes_ok p d (fun hp => h hp d (by simp)), hbs]
      rfl
  obtain ⟨bs, hbs⟩ := this
  exact ⟨_, by simp only [opRepDevlist, Resp.toBytes]; rw [hbs]; rfl⟩

example : (opRepDevlist [devA, devB]).toBytes dev ≠ .panic ∧
    [devA, devB].length < 4294967296 ∧ ∀ d ∈ [devA, devB], d.interfaces.length ≤ 255 := by
  refine ⟨?_, by decide, by decide⟩
  obtain ⟨bs, hbs⟩ := C09_devlist_serialises dev [devA, devB] (by decide)
  rw [hbs]; simp

/-- C10: an exported record is exactly 312 bytes whatever the lengths of path and bus id, and
carries every field at its documented offset. -/
theorem C10_record (p : Profile) (d : Device) (bs : Bytes) (h : d.toBytes p = .ok bs) :
    bs.length = 312 ∧ readDevInfo bs = devInfo d := by
  rw [toBytes_inv h]
  exact ⟨recordBytes_length d, readDevInfo_record d⟩

/-- C10: path and bus id are recovered whole when they fit and contain no NUL. -/
theorem C10_names (p : Profile) (d : Device) (bs : Bytes) (h : d.toBytes p = .ok bs)
    (hp : d.path.length ≤ 256) (hp0 : ∀ b ∈ d.path, b ≠ 0)
    (hb : d.busId.length ≤ 32) (hb0 : ∀ b ∈ d.busId, b ≠ 0) :
    (readDevInfo bs).path = d.path ∧ (readDevInfo bs).busId = d.busId := by
  rw [(C10_record p d bs h).2]
  simp only [devInfo, cstr]
  rw [List.take_of_length_le hp, List.take_of_length_le hb]
  constructor
  · exact takeWhile_all _ hp0
  · exact takeWhile_all _ hb0

/-- C10: exactly when serialising a record fails: never without debug assertions; with them, exactly a
path longer than 256 or a bus id longer than 32 bytes panics.  There is no third outcome. -/
theorem C10_total (p : Profile) (d : Device) :
    (d.toBytes p = .panic ↔ p.debugAssertions = true ∧ (256 < d.path.length ∨ 32 < d.busId.length)) ∧
    (d.toBytes p = .panic ∨ ∃ bs, d.toBytes p = .ok bs) := by
  by_cases hp : p.debugAssertions = true
  · by_cases h1 : d.path.length ≤ 256
    · by_cases h2 : d.busId.length ≤ 32
      · have h := toBytes_ok p d (fun _ => ⟨h1, h2⟩)
        refine ⟨⟨fun e => (by rw [h] at e; cases e), fun e => absurd e.2 (by omega)⟩, Or.inr ⟨_, h⟩⟩
      · have h : d.toBytes p = .panic := by simp [Device.toBytes, debugAssert, hp, h1, h2]
        exact ⟨⟨fun _ => ⟨hp, Or.inr (by omega)⟩, fun _ => h⟩, Or.inl h⟩
    · have h : d.toBytes p = .panic := by simp [Device.toBytes, debugAssert, hp, h1]
      exact ⟨⟨fun _ => ⟨hp, Or.inl (by omega)⟩, fun _ => h⟩, Or.inl h⟩
  · have h := toBytes_ok p d (fun h => absurd h hp)
    exact ⟨⟨fun e => (by rw [h] at e; cases e), fun e => absurd e.1 hp⟩, Or.inr ⟨_, h⟩⟩

/-- A bus id of 33 bytes: refused with debug assertions only. -/
example : ({ devA with busId := List.replicate 33 49 } : Device).toBytes dev = .panic ∧
    ({ devA with busId := List.replicate 33 49 } : Device).toBytes release ≠ .panic := by
  refine ⟨(C10_total _ _).1.2 ⟨rfl, Or.inr (by decide)⟩, fun e => ?_⟩
  exact absurd ((C10_total _ _).1.1 e).1 (by decide)

example : ∃ bs, devA.toBytes dev = .ok bs ∧ (readDevInfo bs).busId = [49, 45, 49] ∧
    (readDevInfo bs).idVendor = 0x1234 ∧ (readDevInfo bs).numInterfaces = 2 := by
  refine ⟨_, toBytes_ok dev devA (by decide), ?_⟩
  rw [readDevInfo_record]
  decide

/-! ## C11 -/

/-- C11: parsing yields the fields whose little-endian encoding is the 8 bytes. -/
theorem C11_parse (bs : Bytes) (h : bs.length = 8) : setupBytes (SetupPacket.parse bs) = bs := by
  match bs, h with
  | [s0, s1, s2, s3, s4, s5, s6, s7], _ =>
    simp only [SetupPacket.parse, setupBytes, le16_toNat, List.cons.injEq, true_and, and_true]
    have := u8_lt s2
    have := u8_lt s3
    have := u8_lt s4
    have := u8_lt s5
    have := u8_lt s6
    have := u8_lt s7
    and_intros <;> apply u8_ext <;> simp only [UInt8.toNat_ofNat'] <;> omega

/-- C11: conversely every SETUP value is parsed from its encoding. -/
theorem C11_parse_encoding (s : SetupPacket) : SetupPacket.parse (setupBytes s) = s := by
  obtain ⟨rt, rq, v, i, l⟩ := s
  have := u16_lt v
  have := u16_lt i
  have := u16_lt l
  simp only [setupBytes, SetupPacket.parse, SetupPacket.mk.injEq, true_and]
  and_intros <;> apply u16_ext <;> rw [le16_toNat] <;> simp only [UInt8.toNat_ofNat'] <;> omega

/-- C11: distinct SETUP packets parse to distinct values. -/
theorem C11_injective (a b : Bytes) (ha : a.length = 8) (hb : b.length = 8)
    (h : SetupPacket.parse a = SetupPacket.parse b) : a = b := by
  rw [← C11_parse a ha, ← C11_parse b hb, h]

example : SetupPacket.parse [0x80, 6, 0x00, 0x01, 0x09, 0x04, 0x12, 0x34]
    = ⟨0x80, 6, 0x0100, 0x0409, 0x3412⟩ := by decide

end Usbip
