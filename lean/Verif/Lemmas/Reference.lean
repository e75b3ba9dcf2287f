import Verif.Spec.Reference
import Verif.Lemmas.Panics
import Verif.Lemmas.Said
import Verif.Lemmas.Hosted
import Verif.Lemmas.Network
/-! Helper lemmas: the server against the reference server. -/

namespace Usbip
open Spec

/-! ### Cutting requests out of the stream -/

/-- The word at offset `i`. -/
def w32 (bs : Bytes) (i : Nat) : UInt32 := UInt32.ofNat (field bs i 4)

theorem field_lt4 (bs : Bytes) (i : Nat) (h : i + 4 ≤ bs.length) :
    field bs i 4 < 4294967296 ∧ be32 (w32 bs i) = slice bs i 4 := by
  have hl : ((bs.drop i).take 4).length = 4 := by rw [List.length_take, List.length_drop]; omega
  unfold w32 field slice
  obtain ⟨x, hx⟩ := be32_of_four _ hl
  rw [hx, natBE_be32, UInt32.ofNat_toNat]
  exact ⟨u32_lt x, rfl⟩

theorem w32_toNat (bs : Bytes) (i : Nat) (h : i + 4 ≤ bs.length) : (w32 bs i).toNat = field bs i 4 := by
  have := (field_lt4 bs i h).1
  simp only [w32, UInt32.toNat_ofNat']
  omega

theorem readExact_at (bs : Bytes) (i k : Nat) (fin : ErrKind) :
    (readExact k : Rd Stream Bytes) ⟨bs.drop i, fin⟩ =
      if i + k ≤ bs.length ∨ k = 0 then .ok (slice bs i k, ⟨bs.drop (i + k), fin⟩) else .err fin := by
  rw [stream_readExact]
  unfold Stream.readExact slice
  simp only [List.length_drop, List.drop_drop]
  by_cases h : k ≤ bs.length - i
  · rw [if_pos h, if_pos (by omega)]
  · rw [if_neg h, if_neg (by omega)]

theorem readU32_at (bs : Bytes) (i : Nat) (fin : ErrKind) :
    (readU32 : Rd Stream UInt32) ⟨bs.drop i, fin⟩ =
      if i + 4 ≤ bs.length then .ok (w32 bs i, ⟨bs.drop (i + 4), fin⟩) else .err fin := by
  by_cases h : i + 4 ≤ bs.length
  · rw [if_pos h]
    have hs : bs.drop i = be32 (w32 bs i) ++ bs.drop (i + 4) := by
      rw [(field_lt4 bs i h).2, slice, ← List.drop_drop, List.take_append_drop]
    rw [hs, stream_readU32]
  · rw [if_neg h, readU32, rd_bind, readExact_at, if_neg (by omega)]
    rfl

theorem readU16_at (bs : Bytes) (i : Nat) (fin : ErrKind) :
    (readU16 : Rd Stream UInt16) ⟨bs.drop i, fin⟩ =
      if i + 2 ≤ bs.length then .ok (UInt16.ofNat (field bs i 2), ⟨bs.drop (i + 2), fin⟩) else .err fin := by
  by_cases h : i + 2 ≤ bs.length
  · rw [if_pos h]
    have hl : ((bs.drop i).take 2).length = 2 := by rw [List.length_take, List.length_drop]; omega
    have hx : ∃ x : UInt16, (bs.drop i).take 2 = be16 x := by
      generalize (bs.drop i).take 2 = l at hl
      match l, hl with
      | [a, b], _ => exact ⟨ofBe16 a b, (be16_ofBe16 a b).symm⟩
    obtain ⟨x, hx⟩ := hx
    have hs : bs.drop i = be16 x ++ bs.drop (i + 2) := by
      rw [← hx, ← List.drop_drop, List.take_append_drop]
    rw [hs, stream_readU16, field, hx, natBE_be16, UInt16.ofNat_toNat]
  · rw [if_neg h, readU16, rd_bind, readExact_at, if_neg (by omega)]
    rfl

theorem field2_lt (bs : Bytes) (i : Nat) (h : i + 2 ≤ bs.length) : field bs i 2 < 65536 := by
  have hl : ((bs.drop i).take 2).length = 2 := by rw [List.length_take, List.length_drop]; omega
  unfold field
  generalize (bs.drop i).take 2 = l at hl
  match l, hl with
  | [a, b], _ =>
    have := u8_lt a
    have := u8_lt b
    simp [natBE]
    omega

theorem assert_at {β} (p : Profile) (c : Bool) (s : Stream) (f : Unit × Stream → Outcome β) :
    (rdAssert p c s >>= f) = if p.debugAssertions = true ∧ c = false then .panic else f ((), s) := by
  rw [rdAssert_apply]
  unfold debugAssert
  cases p.debugAssertions <;> cases c <;> rfl

/-- The request a command is. -/
def Cmd.request : Cmd → Request
  | .reqDevlist _ => .list
  | .reqImport _ busid => .claim (cstr busid)
  | .submit h _ len _ _ _ setup data _ =>
    .transfer (be32 h.seqnum ++ be32 h.devid ++ be32 h.direction ++ be32 h.ep) h.direction.toNat h.ep.toNat
      len.toNat setup data
  | .unlink h _ => .cancel (be32 h.seqnum ++ be32 h.devid ++ be32 h.direction ++ be32 h.ep)

/-- What the reference server makes of the bytes is what reading a command gives. -/
def Spec.Parsed.Is (fin : ErrKind) : Parsed → Outcome (Cmd × Stream) → Prop
  | .request r rest, o => ∃ cmd, o = .ok (cmd, ⟨rest, fin⟩) ∧ cmd.request = r
  | .incomplete, o => o = .err fin
  | .refused, o => o = .err .other
  | .crash, o => o = .panic

theorem slice16 (bs : Bytes) (h : 20 ≤ bs.length) :
    be32 (w32 bs 4) ++ be32 (w32 bs 8) ++ be32 (w32 bs 12) ++ be32 (w32 bs 16) = slice bs 4 16 := by
  rw [(field_lt4 bs 4 (by omega)).2, (field_lt4 bs 8 (by omega)).2, (field_lt4 bs 12 (by omega)).2,
    (field_lt4 bs 16 (by omega)).2]
  unfold slice
  rw [show (16 : Nat) = 4 + 4 + 4 + 4 from rfl, List.take_add, List.take_add, List.take_add]
  simp only [List.drop_drop]

theorem bad_direction (bs : Bytes) (h : 16 ≤ bs.length) :
    (w32 bs 12 &&& 1 == w32 bs 12) = false ↔ 1 < field bs 12 4 := by
  rw [← w32_toNat bs 12 (by omega), ← Bool.not_eq_true, dir_and_one]
  omega

theorem bad_status (bs : Bytes) (h : 8 ≤ bs.length) : (w32 bs 4 == 0) = false ↔ field bs 4 4 ≠ 0 := by
  rw [← w32_toNat bs 4 (by omega)]
  rw [beq_eq_false_iff_ne, ne_eq, ne_eq]
  constructor
  · intro h h'; exact h (u32_ext h')
  · intro h h'; exact h (by rw [h']; rfl)

theorem readHeader_at {β} (p : Profile) (c : UInt16) (bs : Bytes) (fin : ErrKind) (f : Header × Stream → Outcome β) :
    ((readHeader p c : Rd Stream Header) ⟨bs.drop 4, fin⟩ >>= f) =
      if 16 ≤ bs.length ∧ p.debugAssertions = true ∧ 1 < field bs 12 4 then .panic
      else if bs.length < 20 then .err fin
      else f (⟨c.toUInt32, w32 bs 4, w32 bs 8, w32 bs 12, w32 bs 16⟩, ⟨bs.drop 20, fin⟩) := by
  simp only [readHeader, rd_bind, readU32_at]
  by_cases h8 : 8 ≤ bs.length
  · rw [if_pos (by omega)]
    simp only [Outcome.bind_ok, readU32_at]
    by_cases h12 : 12 ≤ bs.length
    · rw [if_pos (by omega)]
      simp only [Outcome.bind_ok, readU32_at]
      by_cases h16 : 16 ≤ bs.length
      · rw [if_pos (by omega)]
        simp only [Outcome.bind_ok]
        rw [assert_at]
        by_cases hd : p.debugAssertions = true ∧ 1 < field bs 12 4
        · rw [if_pos ⟨hd.1, (bad_direction bs h16).mpr hd.2⟩, if_pos ⟨h16, hd⟩]
          rfl
        · rw [if_neg (by rw [bad_direction bs h16]; exact hd), if_neg (by rintro ⟨_, h⟩; exact hd h)]
          simp only [readU32_at]
          by_cases h20 : 20 ≤ bs.length
          · rw [if_pos (by omega), if_neg (by omega)]
            rfl
          · rw [if_neg (by omega), if_pos (by omega)]
            rfl
      · rw [if_neg (by omega), if_neg (by omega), if_pos (by omega)]; rfl
    · rw [if_neg (by omega), if_neg (by omega), if_pos (by omega)]; rfl
  · rw [if_neg (by omega), if_neg (by omega), if_pos (by omega)]; rfl

theorem step32 {β} (bs : Bytes) (i : Nat) (fin : ErrKind) (f : UInt32 → Rd Stream β) (o : Outcome (β × Stream))
    (h1 : bs.length < i + 4 → o = .err fin) (h2 : i + 4 ≤ bs.length → f (w32 bs i) ⟨bs.drop (i + 4), fin⟩ = o) :
    ((readU32 : Rd Stream UInt32) >>= f) ⟨bs.drop i, fin⟩ = o := by
  rw [rd_bind]
  rw [readU32_at]
  by_cases h : i + 4 ≤ bs.length
  · rw [if_pos h]; exact h2 h
  · rw [if_neg h]; exact (h1 (by omega)).symm

theorem stepN {β} (bs : Bytes) (i k : Nat) (fin : ErrKind) (x : Rd Stream Bytes) (f : Bytes → Rd Stream β) (o : Outcome (β × Stream))
    (hx : x ⟨bs.drop i, fin⟩ = (readExact k : Rd Stream Bytes) ⟨bs.drop i, fin⟩) (hk : i ≤ bs.length) (h1 : bs.length < i + k → o = .err fin)
    (h2 : i + k ≤ bs.length → f (slice bs i k) ⟨bs.drop (i + k), fin⟩ = o) :
    (x >>= f) ⟨bs.drop i, fin⟩ = o := by
  rw [rd_bind, hx, readExact_at]
  by_cases h : i + k ≤ bs.length
  · rw [if_pos (.inl h)]; exact h2 h
  · rw [if_neg (by omega)]; exact (h1 (by omega)).symm

theorem readSubmit_at (p : Profile) (bs : Bytes) (fin : ErrKind) :
    (readSubmit p : Rd Stream Cmd) ⟨bs.drop 4, fin⟩ =
      if 16 ≤ bs.length ∧ p.debugAssertions = true ∧ 1 < field bs 12 4 then .panic
      else if bs.length < 48 ∨ bs.length < 48 + payload bs + isoBytes bs then .err fin
      else .ok (.submit ⟨1, w32 bs 4, w32 bs 8, w32 bs 12, w32 bs 16⟩ (w32 bs 20) (w32 bs 24) (w32 bs 28) (w32 bs 32)
        (w32 bs 36) (slice bs 40 8) (slice bs 48 (payload bs)) (slice bs (48 + payload bs) (isoBytes bs)),
        ⟨bs.drop (48 + payload bs + isoBytes bs), fin⟩) := by
  unfold readSubmit
  rw [rd_bind, readHeader_at]
  by_cases hd : 16 ≤ bs.length ∧ p.debugAssertions = true ∧ 1 < field bs 12 4
  · rw [if_pos hd, if_pos hd]
  rw [if_neg hd, if_neg hd]
  by_cases h20 : bs.length < 20
  · rw [if_pos h20, if_pos (by omega)]
  rw [if_neg h20]
  simp only
  refine step32 bs 20 fin _ _ (fun h => by rw [if_pos (by omega)]) fun h => ?_
  refine step32 bs 24 fin _ _ (fun h => by rw [if_pos (by omega)]) fun h => ?_
  refine step32 bs 28 fin _ _ (fun h => by rw [if_pos (by omega)]) fun h => ?_
  refine step32 bs 32 fin _ _ (fun h => by rw [if_pos (by omega)]) fun h => ?_
  refine step32 bs 36 fin _ _ (fun h => by rw [if_pos (by omega)]) fun h => ?_
  refine stepN bs 40 8 fin _ _ _ rfl h (fun h => by rw [if_pos (by omega)]) fun h => ?_
  have e1 : (if w32 bs 12 = dirIn then pure [] else readExact (w32 bs 24).toNat : Rd Stream Bytes) ⟨bs.drop 48, fin⟩
      = (readExact (payload bs) : Rd Stream Bytes) ⟨bs.drop 48, fin⟩ := by
    have : (w32 bs 12 = dirIn) ↔ field bs 12 4 = 1 := by rw [dirIn_iff, w32_toNat bs 12 (by omega)]
    unfold payload
    by_cases hi : field bs 12 4 = 1
    · rw [if_pos (this.mpr hi), if_pos hi, readExact_at, if_pos (.inr rfl)]
      simp [slice]
    · rw [if_neg (fun h => hi (this.mp h)), if_neg hi, w32_toNat bs 24 (by omega)]
  refine stepN bs 48 (payload bs) fin _ _ _ e1 (by omega) (fun h => by rw [if_pos (by omega)]) fun h => ?_
  have e2 : (if w32 bs 32 ≠ 0 ∧ w32 bs 32 ≠ 0xFFFFFFFF then readExact (16 * (w32 bs 32).toNat) else pure [] : Rd Stream Bytes)
      ⟨bs.drop (48 + payload bs), fin⟩ = (readExact (isoBytes bs) : Rd Stream Bytes) ⟨bs.drop (48 + payload bs), fin⟩ := by
    have := hasIso_iff (w32 bs 32)
    unfold hasIso at this
    rw [w32_toNat bs 32 (by omega)] at this
    unfold isoBytes
    by_cases hi : field bs 32 4 = 0 ∨ field bs 32 4 = 4294967295
    · rw [if_neg (by rw [this]; omega), if_pos hi, readExact_at, if_pos (.inr rfl)]
      simp [slice]
    · rw [if_pos (by rw [this]; omega), if_neg hi, w32_toNat bs 32 (by omega)]
  refine stepN bs (48 + payload bs) (isoBytes bs) fin _ _ _ e2 (by omega) (fun h => by rw [if_pos (by omega)]) fun h => ?_
  rw [if_neg (by omega)]
  rfl

theorem readUnlink_at (p : Profile) (bs : Bytes) (fin : ErrKind) :
    (readUnlink p : Rd Stream Cmd) ⟨bs.drop 4, fin⟩ =
      if 16 ≤ bs.length ∧ p.debugAssertions = true ∧ 1 < field bs 12 4 then .panic
      else if bs.length < 48 then .err fin
      else .ok (.unlink ⟨2, w32 bs 4, w32 bs 8, w32 bs 12, w32 bs 16⟩ (w32 bs 20), ⟨bs.drop 48, fin⟩) := by
  unfold readUnlink
  rw [rd_bind, readHeader_at]
  by_cases hd : 16 ≤ bs.length ∧ p.debugAssertions = true ∧ 1 < field bs 12 4
  · rw [if_pos hd, if_pos hd]
  rw [if_neg hd, if_neg hd]
  by_cases h20 : bs.length < 20
  · rw [if_pos h20, if_pos (by omega)]
  rw [if_neg h20]
  simp only
  refine step32 bs 20 fin _ _ (fun h => by rw [if_pos (by omega)]) fun h => ?_
  refine stepN bs 24 24 fin _ _ _ rfl (by omega) (fun h => by rw [if_pos (by omega)]) fun h => ?_
  rw [if_neg (by omega)]
  rfl

theorem w16_eq (bs : Bytes) (i : Nat) (c : UInt16) (h : i + 2 ≤ bs.length) :
    UInt16.ofNat (field bs i 2) = c ↔ field bs i 2 = c.toNat := by
  have := field2_lt bs i h
  constructor
  · rintro rfl
    simp only [UInt16.toNat_ofNat']; omega
  · intro e
    apply u16_ext
    simp only [UInt16.toNat_ofNat']; omega

/-- Reading a command is what the reference server does with the bytes. -/
theorem parse_read (p : Profile) (bs : Bytes) (fin : ErrKind) :
    (parse p.debugAssertions bs).Is fin ((readCommand p : Rd Stream Cmd) ⟨bs, fin⟩) := by
  have h0 : (⟨bs, fin⟩ : Stream) = ⟨bs.drop 0, fin⟩ := rfl
  unfold readCommand parse
  rw [h0, rd_bind, readU16_at]
  by_cases h2 : bs.length < 2
  · rw [if_pos h2, if_neg (by omega)]; rfl
  rw [if_neg h2, if_pos (show 0 + 2 ≤ bs.length by omega), Outcome.bind_ok]
  dsimp only
  have hv := w16_eq bs 0 USBIP_VERSION (by omega)
  have hz := w16_eq bs 0 0 (by omega)
  have hvn : USBIP_VERSION.toNat = 0x0111 := rfl
  have hzn : (0 : UInt16).toNat = 0 := rfl
  rw [hvn] at hv
  rw [hzn] at hz
  by_cases hb : field bs 0 2 ≠ 0 ∧ field bs 0 2 ≠ 0x0111
  · rw [if_pos hb, if_pos ⟨fun h => hb.1 (hz.mp h), fun h => hb.2 (hv.mp h)⟩]
    rfl
  rw [if_neg hb, if_neg (show ¬ (UInt16.ofNat (field bs 0 2) ≠ 0 ∧ UInt16.ofNat (field bs 0 2) ≠ USBIP_VERSION) from fun h => hb ⟨fun e => h.1 (hz.mpr e), fun e => h.2 (hv.mpr e)⟩)]
  rw [rd_bind]
  rw [readU16_at]
  by_cases h4 : bs.length < 4
  · rw [if_pos h4, if_neg (show ¬ 0 + 2 + 2 ≤ bs.length by omega)]; rfl
  rw [if_neg h4, if_pos (show 0 + 2 + 2 ≤ bs.length by omega), Outcome.bind_ok]
  dsimp only
  have c1 := w16_eq bs 2 OP_REQ_DEVLIST (by omega)
  have c2 := w16_eq bs 2 OP_REQ_IMPORT (by omega)
  have c3 := w16_eq bs 2 USBIP_CMD_SUBMIT (by omega)
  have c4 := w16_eq bs 2 USBIP_CMD_UNLINK (by omega)
  rw [show OP_REQ_DEVLIST.toNat = 0x8005 from rfl] at c1
  rw [show OP_REQ_IMPORT.toNat = 0x8003 from rfl] at c2
  rw [show USBIP_CMD_SUBMIT.toNat = 1 from rfl] at c3
  rw [show USBIP_CMD_UNLINK.toNat = 2 from rfl] at c4
  simp only [Nat.zero_add, Nat.reduceAdd] at *
  simp only [c1, c2, c3, c4]
  by_cases d1 : field bs 2 2 = 0x8005
  · simp only [d1, if_true]
    rw [rd_bind, readU32_at]
    by_cases h8 : bs.length < 8
    · rw [if_pos h8, if_neg (by omega)]; rfl
    rw [if_neg h8, if_pos (show 4 + 4 ≤ bs.length by omega), Outcome.bind_ok, rd_bind, assert_at]
    dsimp only
    simp only [bad_status bs (show 8 ≤ bs.length by omega)]
    by_cases hs : p.debugAssertions = true ∧ field bs 4 4 ≠ 0
    · rw [if_pos hs, if_pos hs]; rfl
    · rw [if_neg hs, if_neg hs]
      exact ⟨_, rfl, rfl⟩
  simp only [d1, if_false]
  by_cases d2 : field bs 2 2 = 0x8003
  · simp only [d2, if_true]
    rw [rd_bind, readU32_at]
    by_cases h8 : bs.length < 8
    · rw [if_pos h8, if_neg (by omega)]; rfl
    rw [if_neg h8, if_pos (show 4 + 4 ≤ bs.length by omega), Outcome.bind_ok, rd_bind, assert_at]
    dsimp only
    simp only [bad_status bs (show 8 ≤ bs.length by omega)]
    by_cases hs : p.debugAssertions = true ∧ field bs 4 4 ≠ 0
    · rw [if_pos hs, if_pos hs]; rfl
    rw [if_neg hs, if_neg hs, rd_bind]
    rw [readExact_at]
    by_cases h40 : bs.length < 40
    · rw [if_pos h40, if_neg (by omega)]; rfl
    · rw [if_neg h40, if_pos (by omega)]
      exact ⟨_, rfl, rfl⟩
  simp only [d2, if_false]
  by_cases d3 : field bs 2 2 = 1
  · simp only [d3, if_true]
    rw [readSubmit_at]
    by_cases hd : 16 ≤ bs.length ∧ p.debugAssertions = true ∧ 1 < field bs 12 4
    · rw [if_pos hd, if_pos hd]; rfl
    rw [if_neg hd, if_neg hd]
    by_cases h48 : bs.length < 48
    · rw [if_pos h48, if_pos (.inl h48)]; rfl
    rw [if_neg h48]
    by_cases hl : bs.length < 48 + payload bs + isoBytes bs
    · rw [if_pos hl, if_pos (.inr hl)]; rfl
    rw [if_neg hl, if_neg (by omega)]
    refine ⟨_, rfl, ?_⟩
    simp only [Cmd.request]
    rw [slice16 bs (by omega), w32_toNat bs 12 (by omega), w32_toNat bs 16 (by omega), w32_toNat bs 24 (by omega)]
  simp only [d3, if_false]
  by_cases d4 : field bs 2 2 = 2
  · simp only [d4, if_true]
    rw [readUnlink_at]
    by_cases hd : 16 ≤ bs.length ∧ p.debugAssertions = true ∧ 1 < field bs 12 4
    · rw [if_pos hd, if_pos hd]; rfl
    rw [if_neg hd, if_neg hd]
    by_cases h48 : bs.length < 48
    · rw [if_pos h48, if_pos h48]; rfl
    rw [if_neg h48, if_neg h48]
    refine ⟨_, rfl, ?_⟩
    simp only [Cmd.request]
    rw [slice16 bs (by omega)]
  · simp only [d4, if_false]
    rfl

/-! ### Replies -/

theorem bigEndian1 (n : Nat) : bigEndian 1 n = [UInt8.ofNat n] := by
  simp only [bigEndian, List.cons.injEq, and_true]
  apply u8_ext
  simp only [UInt8.toNat_ofNat']
  omega

theorem bigEndian1' (x : UInt8) : bigEndian 1 x.toNat = [x] := by
  rw [bigEndian1, UInt8.ofNat_toNat]

theorem bigEndian4_nat (n : Nat) : bigEndian 4 n = be32 (UInt32.ofNat n) := by
  simp only [bigEndian, be32, UInt32.toNat_ofNat', List.cons.injEq, and_true]
  refine ⟨?_, ?_, ?_, ?_⟩ <;> apply u8_ext <;> simp only [UInt8.toNat_ofNat'] <;> omega

theorem record_eq (d : Device) : record d = recordBytes d := by
  unfold record recordBytes
  simp only [layout_cons, layout_nil, bigEndian4, bigEndian2, bigEndian1, UInt8.ofNat_toNat]
  simp only [padded, resize, List.append_assoc, List.cons_append, List.nil_append]
  rfl

theorem entry_eq (d : Device) : entry d = recordBytes d ++ ifBytes d.interfaces := by
  unfold entry ifBytes
  rw [record_eq]
  congr 2
  funext i
  simp only [layout_cons, layout_nil, bigEndian1, UInt8.ofNat_toNat]
  rfl

/-- A reply written out, or a crash, is what the reference server sends. -/
def Sends (p : Profile) (o : Outcome Resp) : Option Bytes → Prop
  | some b => ∃ r, o = .ok r ∧ r.toBytes p = .ok b
  | none => ∀ r b, o = .ok r → r.toBytes p ≠ .ok b

theorem layout_head3 (a b c : Nat) : layout [(2, a), (2, b), (4, c)] = bigEndian 2 a ++ bigEndian 2 b ++ bigEndian 4 c := by
  simp [layout_cons, layout_nil]

theorem devlist_entries {p : Profile} (ds : List Device) (bs : Bytes) (h : devlistBytes p ds = .ok bs) :
    bs = ds.flatMap entry := by
  induction ds generalizing bs with
  | nil => simp only [devlistBytes, Outcome.ok.injEq] at h; subst h; rfl
  | cons d ds ih =>
    simp only [devlistBytes, Outcome.bind_eq_ok] at h
    obtain ⟨b, hb, bs', hbs, h⟩ := h
    simp only [Outcome.pure_eq, Outcome.ok.injEq] at h
    subst h
    rw [toBytesWithInterfaces_inv hb, ih bs' hbs, List.flatMap_cons, entry_eq]

theorem sends_listing (p : Profile) (ds : List Device) :
    Sends p (.ok (opRepDevlist ds)) (listing p.debugAssertions ds) := by
  unfold listing
  have h := devlist_writes p ds
  by_cases hc : p.debugAssertions = true ∧ ∃ d ∈ ds, 256 < d.path.length ∨ 32 < d.busId.length
  · rw [if_pos hc]
    intro r b hr hb
    simp only [Outcome.ok.injEq] at hr
    subst hr
    exact h.mp ⟨b, hb⟩ hc
  · rw [if_neg hc]
    obtain ⟨bs, hb⟩ := h.mpr hc
    refine ⟨_, rfl, ?_⟩
    rw [hb]
    simp only [opRepDevlist, Resp.toBytes, Outcome.bind_eq_ok] at hb
    obtain ⟨l, hl, hb⟩ := hb
    simp only [Outcome.pure_eq, Outcome.ok.injEq] at hb
    rw [← hb, devlist_entries ds l hl]
    simp only [layout_cons, layout_nil, bigEndian4_nat, List.append_nil, List.append_assoc]
    rfl

theorem sends_granted (p : Profile) (d : Device) :
    Sends p (.ok (opRepImportSuccess d)) (granted p.debugAssertions d) := by
  unfold granted
  have h := device_writes p d
  by_cases hc : p.debugAssertions = true ∧ (256 < d.path.length ∨ 32 < d.busId.length)
  · rw [if_pos hc]
    intro r b hr hb
    simp only [Outcome.ok.injEq] at hr
    subst hr
    simp only [opRepImportSuccess, Resp.toBytes, Outcome.bind_eq_ok] at hb
    obtain ⟨l, hl, hb⟩ := hb
    exact h.mp ⟨l, hl⟩ hc
  · rw [if_neg hc]
    obtain ⟨bs, hb⟩ := h.mpr hc
    refine ⟨_, rfl, ?_⟩
    simp only [opRepImportSuccess, Resp.toBytes, hb, Outcome.bind_ok]
    rw [toBytes_inv hb, record_eq]
    rfl

theorem sends_denied (p : Profile) : Sends p (.ok opRepImportFail) (some denied) :=
  ⟨_, rfl, rfl⟩

/-- The sixteen bytes a reply repeats. -/
def Header.ids (h : Header) : Bytes := be32 h.seqnum ++ be32 h.devid ++ be32 h.direction ++ be32 h.ep

theorem sends_cancelled (p : Profile) (h : Header) :
    Sends p (.ok (usbipRetUnlinkSuccess { h with command := USBIP_RET_UNLINK.toUInt32 })) (some (cancelled h.ids)) := by
  refine ⟨_, rfl, ?_⟩
  simp only [usbipRetUnlinkSuccess, Resp.toBytes, beq_self_eq_true]
  rw [debugAssert_true p rfl]
  simp only [Outcome.bind_ok, Outcome.pure_eq, Outcome.ok.injEq]
  simp only [Header.toBytes, cancelled, Header.ids, List.append_assoc]
  rfl

theorem sends_fail (p : Profile) (h : Header) :
    Sends p (.ok (usbipRetSubmitFail { h with command := 3 })) (some (result h.ids 1 [])) := by
  refine ⟨_, rfl, ?_⟩
  simp only [usbipRetSubmitFail, Resp.toBytes]
  rw [debugAssert_true p (c := (3 : UInt32) == USBIP_RET_SUBMIT.toUInt32) (by decide), Outcome.bind_ok,
    debugAssert_true p (by split <;> rfl)]
  simp only [Outcome.bind_ok, Outcome.pure_eq, Outcome.ok.injEq, List.append_nil]
  simp only [Header.toBytes, result, Header.ids, List.append_assoc]
  rfl

theorem sends_data (p : Profile) (h : Header) (b : Bytes) :
    Sends p (.ok (usbipRetSubmitSuccess { h with command := 3 } 0 0 b []))
      (if p.debugAssertions = true ∧ h.direction.toNat ≠ 1 ∧ b.length % 2 ^ 32 ≠ 0 then none
       else some (result h.ids 0 b)) := by
  have hz : (asU32 b.length == 0) = true ↔ b.length % 2 ^ 32 = 0 := by
    rw [beq_iff_eq, ← UInt32.toNat_inj]
    simp [asU32]
  by_cases hc : p.debugAssertions = true ∧ h.direction.toNat ≠ 1 ∧ b.length % 2 ^ 32 ≠ 0
  · rw [if_pos hc]
    intro r bs hr hb
    simp only [Outcome.ok.injEq] at hr
    subst hr
    simp only [usbipRetSubmitSuccess, Resp.toBytes, Outcome.bind_eq_ok] at hb
    obtain ⟨_, _, _, h2, _⟩ := hb
    have := debugAssert_ok h2 hc.1
    rw [if_neg (fun e => hc.2.1 ((dirIn_iff _).mp e))] at this
    exact hc.2.2 (hz.mp this)
  · rw [if_neg hc]
    refine ⟨_, rfl, ?_⟩
    simp only [usbipRetSubmitSuccess, Resp.toBytes]
    rw [debugAssert_true p (c := (3 : UInt32) == USBIP_RET_SUBMIT.toUInt32) (by decide), Outcome.bind_ok, debugAssert_of p]
    · simp only [Outcome.bind_ok, Outcome.pure_eq, Outcome.ok.injEq, List.append_nil]
      simp only [Header.toBytes, result, Header.ids, List.append_assoc, layout_cons, layout_nil, bigEndian4_nat]
      rfl
    · intro hp
      by_cases hd : h.direction.toNat = 1
      · rw [if_pos ((dirIn_iff _).mpr hd)]; simp
      · rw [if_neg (fun e => hd ((dirIn_iff _).mp e)), hz]
        exact Classical.byContradiction fun hh => hc ⟨hp, hd, hh⟩

/-! ### The simulation -/

/-- A connection and a client go together. -/
def Bond (used : List (Bytes × Device)) (x : Conn) (y : Client) : Prop :=
  x.input = y.input ∧ x.output = y.sent ∧ x.status = y.status ∧
  (y.status = .running → x.current = y.device.map Device.busId ∧
    ∀ d, y.device = some d → amGet d.busId used = some d)

/-- Client `c` is live and has `d`. -/
def Spec.Server.Has {σ} (t : Server σ) (c : Nat) (d : Device) : Prop :=
  ∃ y, t.clients c = some y ∧ y.status = .running ∧ y.device = some d

/-- The tables of the two servers agree. -/
structure Tables {σ} (s : Shared σ) (t : Server σ) : Prop where
  free : s.available = t.free
  world : s.world = t.world
  keys : ∀ id, id ∈ s.used.map Prod.fst ↔ id ∈ t.away
  named : ∀ e ∈ s.used, e.2.busId = e.1
  nodup : (t.free.map Device.busId).Nodup

/-- The server and the reference server are in corresponding states. -/
structure Tracks {σ} (s : Sys σ) (t : Server σ) : Prop extends Tables s.shared t where
  conns : ∀ c, (s.conns c = none ∧ t.clients c = none) ∨
    ∃ x y, s.conns c = some x ∧ t.clients c = some y ∧ Bond s.shared.used x y
  apart : ∀ c d, t.Has c d → ∀ f ∈ t.free, f.busId ≠ d.busId
  distinct : ∀ c c' d d', t.Has c d → t.Has c' d' → d.busId = d'.busId → c = c'

theorem Tracks.init {σ} (devices : List Device) (w : World σ) (hd : (devices.map Device.busId).Nodup) :
    Tracks (Sys.init devices w) (Server.start devices w) where
  free := rfl
  world := rfl
  keys := by simp [Sys.init, Shared.newSimulated, Server.start]
  named := by simp [Sys.init, Shared.newSimulated]
  nodup := hd
  conns _ := .inl ⟨rfl, rfl⟩
  apart := by rintro c d ⟨y, hy, _⟩; simp [Server.start] at hy
  distinct := by rintro c c' d d' ⟨y, hy, _⟩; simp [Server.start] at hy

theorem has_set {σ} {t : Server σ} {c c' : Nat} {y : Client} {d : Device} :
    (t.set c y).Has c' d ↔ if c' = c then y.status = .running ∧ y.device = some d else t.Has c' d := by
  unfold Server.Has Server.set
  by_cases h : c' = c
  · simp [h]
  · simp [h]

/-- Replacing one connection and the tables. -/
theorem Tracks.update {σ} {s : Sys σ} {t : Server σ} (h : Tracks s t) {c : Nat} {x' : Conn} {y' : Client}
    {s' : Shared σ} {t' : Server σ} (ht : Tables s' t') (hcl : t'.clients = t.clients) (hb : Bond s'.used x' y')
    (hget : ∀ c' d, c' ≠ c → t.Has c' d → amGet d.busId s'.used = amGet d.busId s.shared.used)
    (hap : ∀ c' d, c' ≠ c → t.Has c' d → ∀ f ∈ t'.free, f.busId ≠ d.busId)
    (hy : ∀ d, y'.status = .running → y'.device = some d →
      (∀ f ∈ t'.free, f.busId ≠ d.busId) ∧ ∀ c' d', c' ≠ c → t.Has c' d' → d.busId ≠ d'.busId) :
    Tracks ⟨s', setConn s.conns c x'⟩ (t'.set c y') where
  free := ht.free
  world := ht.world
  keys := ht.keys
  named := ht.named
  nodup := ht.nodup
  conns c' := by
    simp only [setConn, Server.set, hcl]
    by_cases hc : c' = c
    · exact .inr ⟨x', y', by simp [hc], by simp [hc], hb⟩
    · simp only [if_neg hc]
      rcases h.conns c' with h' | ⟨x, y, hx, hy', b1, b2, b3, b4⟩
      · exact .inl h'
      · refine .inr ⟨x, y, hx, hy', b1, b2, b3, fun hr => ⟨(b4 hr).1, fun d hd => ?_⟩⟩
        rw [hget c' d hc ⟨y, hy', hr, hd⟩]
        exact (b4 hr).2 d hd
  apart c' d hh f hf := by
    rw [has_set] at hh
    by_cases hc : c' = c
    · rw [if_pos hc] at hh
      exact (hy d hh.1 hh.2).1 f hf
    · rw [if_neg hc] at hh
      have : t.Has c' d := by unfold Server.Has at hh ⊢; rw [← hcl]; exact hh
      exact hap c' d hc this f hf
  distinct c₁ c₂ d₁ d₂ h₁ h₂ he := by
    rw [has_set] at h₁ h₂
    have old : ∀ {c' d}, t'.Has c' d → t.Has c' d := by
      intro c' d hh; unfold Server.Has at hh ⊢; rw [← hcl]; exact hh
    by_cases hc₁ : c₁ = c
    · rw [if_pos hc₁] at h₁
      by_cases hc₂ : c₂ = c
      · rw [hc₁, hc₂]
      · rw [if_neg hc₂] at h₂
        exact absurd he ((hy d₁ h₁.1 h₁.2).2 c₂ d₂ hc₂ (old h₂))
    · rw [if_neg hc₁] at h₁
      by_cases hc₂ : c₂ = c
      · rw [if_pos hc₂] at h₂
        exact absurd he.symm ((hy d₂ h₂.1 h₂.2).2 c₁ d₁ hc₁ (old h₁))
      · rw [if_neg hc₂] at h₂
        exact h.distinct c₁ c₂ d₁ d₂ (old h₁) (old h₂) he

/-- An update that changes neither the lists nor the connection's device (or ends the connection). -/
theorem Tracks.keep {σ} {s : Sys σ} {t : Server σ} (h : Tracks s t) {c : Nat} {x' : Conn} {y y' : Client}
    (hyc : t.clients c = some y) (hrun : y.status = .running)
    {w : World σ} (hin : x'.input = y'.input) (hout : x'.output = y'.sent) (hst : x'.status = y'.status)
    (hdev : y'.status = .running → x'.current = y.device.map Device.busId ∧ y'.device = y.device)
    (hbond : ∀ d, y.device = some d → amGet d.busId s.shared.used = some d) :
    Tracks ⟨{ s.shared with world := w }, setConn s.conns c x'⟩ ({ t with world := w }.set c y') := by
  refine h.update (s' := { s.shared with world := w }) (t' := { t with world := w })
    ⟨h.free, rfl, h.keys, h.named, h.nodup⟩ rfl ⟨hin, hout, hst, fun hr => ?_⟩ (fun _ _ _ _ => rfl)
    (fun c' d _ hh => h.apart c' d hh) (fun d hr hd => ?_)
  · obtain ⟨h1, h2⟩ := hdev hr
    rw [h2]
    exact ⟨h1, hbond⟩
  · obtain ⟨h1, h2⟩ := hdev hr
    rw [h2] at hd
    have hh : t.Has c d := ⟨y, hyc, hrun, hd⟩
    exact ⟨h.apart c d hh, fun c' d' hne hh' he => hne (h.distinct c c' d d' hh hh' he).symm⟩

theorem takeFirst_eq (id : Bytes) (l : List Device) : takeFirst id l =
    (l.find? (fun d => d.busId == id)).map (fun d => (d, l.eraseP (fun d => d.busId == id))) := by
  induction l with
  | nil => rfl
  | cons a l ih =>
    rw [takeFirst, List.find?_cons, List.eraseP_cons]
    by_cases h : a.busId = id
    · simp [h]
    · have : (a.busId == id) = false := beq_eq_false_iff_ne.mpr h
      rw [if_neg h, ih, this]
      cases l.find? (fun d => d.busId == id) <;> rfl

/-- What is sent of a reply. -/
def outBytes : Option Bytes → WriteRes → Bytes
  | some b, .full => b
  | some b, .fail n _ => b.take n
  | some b, .cut n => b.take n
  | none, _ => []

/-- What becomes of the connection. -/
def outStatus : Option Bytes → WriteRes → Status
  | some _, .full => .running
  | some _, .fail _ e => .failed e
  | some _, .cut _ => .cancelled
  | none, _ => .panicked

theorem iterate_sends {σ} {env : Env σ} {p : Profile} {s s' : Shared σ} {x : Conn} {cmd : Cmd} {rest : Stream}
    {o : Outcome Resp} {cur' : Option Bytes} {reply : Option Bytes} (w : WriteRes) (hx : x.status = .running)
    (hr : readCommand p x.input = .ok (cmd, rest)) (hs : s.serve env p x.current cmd = (o, s', cur'))
    (hS : Sends p o reply) :
    ∃ x', x.iterate env p s w = (s', x') ∧ x'.input = rest ∧ x'.current = cur' ∧
      x'.output = x.output ++ outBytes reply w ∧ x'.status = outStatus reply w := by
  unfold Conn.iterate
  rw [hr]
  dsimp only
  rw [hs]
  cases reply with
  | some b =>
    obtain ⟨r, rfl, hb⟩ := hS
    dsimp only
    rw [hb]
    cases w with
    | full => exact ⟨_, rfl, rfl, rfl, rfl, hx⟩
    | fail n e => exact ⟨_, rfl, rfl, rfl, rfl, rfl⟩
    | cut n => exact ⟨_, rfl, rfl, rfl, rfl, rfl⟩
  | none =>
    cases o with
    | ok r =>
      have := fun b => hS r b rfl
      cases hb : r.toBytes p with
      | ok b => exact absurd hb (this b)
      | err e => simp only [hb]; exact ⟨_, rfl, rfl, rfl, by simp [outBytes], rfl⟩
      | panic => simp only [hb]; exact ⟨_, rfl, rfl, rfl, by simp [outBytes], rfl⟩
      | diverge => simp only [hb]; exact ⟨_, rfl, rfl, rfl, by simp [outBytes], rfl⟩
    | err e => exact ⟨_, rfl, rfl, rfl, by simp [outBytes], rfl⟩
    | panic => exact ⟨_, rfl, rfl, rfl, by simp [outBytes], rfl⟩
    | diverge => exact ⟨_, rfl, rfl, rfl, by simp [outBytes], rfl⟩

theorem turn_sends {σ} {env : Env σ} {p : Profile} {t t' : Server σ} {y : Client} {r : Request} {rest : Bytes}
    {dev' : Option Device} {reply : Option Bytes} (w : WriteRes) (hy : y.status = .running)
    (hr : parse p.debugAssertions y.input.bytes = .request r rest)
    (hs : t.answer env p y.device r = (reply, t', dev')) :
    ∃ y', t.turn env p y w = (t', y') ∧ y'.input = ⟨rest, y.input.fin⟩ ∧ y'.device = dev' ∧
      y'.sent = y.sent ++ outBytes reply w ∧ y'.status = outStatus reply w := by
  unfold Server.turn
  rw [hr]
  dsimp only
  rw [hs]
  cases reply with
  | some b =>
    cases w with
    | full => exact ⟨_, rfl, rfl, rfl, rfl, hy⟩
    | fail n e => exact ⟨_, rfl, rfl, rfl, rfl, rfl⟩
    | cut n => exact ⟨_, rfl, rfl, rfl, rfl, rfl⟩
  | none => exact ⟨_, rfl, rfl, rfl, by simp [outBytes], rfl⟩

/-- Transfers. -/
theorem submit_transferred {σ} (env : Env σ) (p : Profile) (s : Shared σ) (d : Device) (h : Header) (len : UInt32)
    (setup data : Bytes) :
    Sends p (s.submit env p d h len setup data).1
      (transferred env p s.world d h.ids h.direction.toNat h.ep.toNat len.toNat setup data).1 ∧
    (s.submit env p d h len setup data).2 = { s with world :=
      (transferred env p s.world d h.ids h.direction.toNat h.ep.toNat len.toNat setup data).2 } := by
  have ha : address h.direction.toNat h.ep.toNat = (⟨d, h, len, setup, data⟩ : Job).address := rfl
  unfold transferred
  rw [ha]
  cases he : endpointAt d (⟨d, h, len, setup, data⟩ : Job).address with
  | none =>
    have := submit_missing env p s ⟨d, h, len, setup, data⟩ he
    dsimp only at this ⊢
    rw [this]
    exact ⟨sends_fail p h, rfl⟩
  | some r =>
    obtain ⟨ep, owner⟩ := r
    have := submit_eq env p s ⟨d, h, len, setup, data⟩ ep owner he
    dsimp only at this ⊢
    rw [this, UInt32.ofNat_toNat]
    obtain ⟨hs, hw⟩ := handleUrb_said env p d ep owner len (setupAt setup) data s.world
    rw [← hw]
    generalize d.handleUrb env p ep owner len (setupAt setup) data s.world = u at hs
    generalize said env p d ep owner len (setupAt setup) data s.world = v at hs ⊢
    obtain ⟨sd, w'⟩ := v
    cases sd with
    | data b =>
      simp only [Spec.Said.Is] at hs
      simp only [hs]
      have := sends_data p h b
      by_cases hc : p.debugAssertions = true ∧ h.direction.toNat ≠ 1 ∧ b.length % 2 ^ 32 ≠ 0
      · rw [if_pos hc] at this ⊢
        exact ⟨this, rfl⟩
      · rw [if_neg hc] at this ⊢
        exact ⟨this, rfl⟩
    | failure =>
      obtain ⟨e, hs⟩ := hs
      simp only [hs]
      exact ⟨sends_fail p h, trivial⟩
    | crash =>
      simp only [Spec.Said.Is] at hs
      simp only [hs]
      exact ⟨fun r b h => by simp at h, trivial⟩

theorem Tracks.request {σ} {env : Env σ} {p : Profile} {s : Sys σ} {t : Server σ} (h : Tracks s t) {c : Nat} {x : Conn}
    {y : Client} (hx : s.conns c = some x) (hy : t.clients c = some y) (hrun : y.status = .running)
    (hb : Bond s.shared.used x y) (w : WriteRes) {cmd : Cmd} {rest : Bytes}
    (hr : readCommand p x.input = .ok (cmd, ⟨rest, x.input.fin⟩))
    (hp : parse p.debugAssertions x.input.bytes = .request cmd.request rest) :
    Tracks ⟨(x.iterate env p s.shared w).1, setConn s.conns c (x.iterate env p s.shared w).2⟩
      ((t.turn env p y w).1.set c (t.turn env p y w).2) := by
  obtain ⟨b1, b2, b3, b4⟩ := hb
  obtain ⟨bc, bd⟩ := b4 hrun
  have hxr : x.status = .running := by rw [b3]; exact hrun
  rw [b1] at hp
  -- everything that leaves the lists alone
  have plain : ∀ (o : Outcome Resp) (reply : Option Bytes) (w' : World σ),
      s.shared.serve env p x.current cmd = (o, { s.shared with world := w' }, x.current) →
      t.answer env p y.device cmd.request = (reply, { t with world := w' }, y.device) → Sends p o reply →
      Tracks ⟨(x.iterate env p s.shared w).1, setConn s.conns c (x.iterate env p s.shared w).2⟩
        ((t.turn env p y w).1.set c (t.turn env p y w).2) := by
    intro o reply w' h1 h2 h3
    obtain ⟨x', e1, i1, c1, o1, s1⟩ := iterate_sends w hxr hr h1 h3
    obtain ⟨y', e2, i2, c2, o2, s2⟩ := turn_sends w hrun hp h2
    rw [e1, e2]
    refine h.keep hy hrun (by rw [i1, i2, b1]) (by rw [o1, o2, b2]) (by rw [s1, s2]) (fun _ => ⟨?_, ?_⟩) bd
    · rw [c1, bc]
    · rw [c2]
  cases cmd with
  | reqDevlist st =>
    refine plain (.ok (opRepDevlist s.shared.available)) (listing p.debugAssertions t.free) s.shared.world rfl ?_ ?_
    · simp only [Cmd.request, Server.answer, h.world]
    · rw [h.free]; exact sends_listing p t.free
  | unlink hd n =>
    refine plain _ (some (cancelled hd.ids)) s.shared.world rfl ?_ (sends_cancelled p hd)
    simp only [Cmd.request, Server.answer, h.world, Header.ids]
  | submit hd a len b n e setup data iso =>
    cases hdev : y.device with
    | none =>
      have hcur : x.current = none := by rw [bc, hdev]; rfl
      refine plain .panic none s.shared.world ?_ ?_ (fun r b h => by simp at h)
      · simp only [Shared.serve, hcur, Option.bind_none]
      · simp only [Cmd.request, Server.answer, hdev, h.world]
    | some d =>
      have hcur : x.current.bind (fun id => amGet id s.shared.used) = some d := by
        rw [bc, hdev]; exact bd d hdev
      obtain ⟨q1, q2⟩ := submit_transferred env p s.shared d hd len setup data
      refine plain _ _ (transferred env p s.shared.world d hd.ids hd.direction.toNat hd.ep.toNat len.toNat setup data).2 ?_ ?_ q1
      · simp only [Shared.serve, hcur]
        rw [q2]
      · simp only [Cmd.request, Server.answer, hdev, ← h.world, Header.ids]
  | reqImport st busid =>
    have hserve : s.shared.serve env p x.current (.reqImport st busid) =
        (.ok (s.shared.import busid).1, (s.shared.import busid).2.1, (s.shared.import busid).2.2) := rfl
    have himp : s.shared.import busid = match takeFirst (cstr busid) s.shared.available with
      | some (dev, rest) => (opRepImportSuccess dev,
          { s.shared with available := rest, used := amInsert dev.busId dev s.shared.used }, some dev.busId)
      | none => (opRepImportFail, s.shared, none) := rfl
    rw [takeFirst_eq, h.free] at himp
    have hans : t.answer env p y.device (Cmd.request (.reqImport st busid)) =
        match t.free.find? (fun d => d.busId == cstr busid) with
        | some d => (granted p.debugAssertions d,
            { t with free := t.free.eraseP (fun d => d.busId == cstr busid), away := cstr busid :: t.away }, some d)
        | none => (some denied, t, none) := rfl
    cases hf : t.free.find? (fun d => d.busId == cstr busid) with
    | none =>
      rw [hf] at himp hans
      simp only [Option.map_none] at himp
      rw [himp] at hserve
      obtain ⟨x', e1, i1, c1, o1, s1⟩ := iterate_sends w hxr hr hserve (sends_denied p)
      obtain ⟨y', e2, i2, c2, o2, s2⟩ := turn_sends w hrun hp hans
      rw [e1, e2]
      refine h.update h.toTables rfl ⟨by rw [i1, i2, b1], by rw [o1, o2, b2], by rw [s1, s2], fun _ => ⟨?_, ?_⟩⟩
        (fun _ _ _ _ => rfl) (fun c' d _ hh => h.apart c' d hh) (fun d _ hd => ?_)
      · rw [c1, c2]; rfl
      · rw [c2]; intro d hd; simp at hd
      · rw [c2] at hd; simp at hd
    | some d =>
      rw [hf] at himp hans
      simp only [Option.map_some] at himp
      rw [himp] at hserve
      have hid : d.busId = cstr busid := by have := List.find?_some hf; simpa using this
      have hmem : d ∈ t.free := List.mem_of_find?_eq_some hf
      have hsub : ∀ f ∈ t.free.eraseP (fun d => d.busId == cstr busid), f ∈ t.free := fun f hf => List.mem_of_mem_eraseP hf
      have hnew : ∀ f ∈ t.free.eraseP (fun d => d.busId == cstr busid), f.busId ≠ d.busId := by
        intro f hfm
        obtain ⟨a, l1, l2, hall, hpa, hl, he⟩ := List.exists_of_eraseP hmem (p := fun d => d.busId == cstr busid) (by simp [hid])
        have hnd := h.nodup
        rw [hl] at hnd
        rw [he] at hfm
        simp only [List.map_append, List.map_cons, List.nodup_append, List.nodup_cons, List.mem_map, List.mem_cons] at hnd
        have ha : a.busId = d.busId := by rw [hid]; simpa using hpa
        rw [← ha]
        rcases List.mem_append.mp hfm with hf1 | hf2
        · exact hnd.2.2 _ ⟨f, hf1, rfl⟩ _ (.inl rfl)
        · intro e
          exact hnd.2.1.1 ⟨f, hf2, e⟩
      obtain ⟨x', e1, i1, c1, o1, s1⟩ := iterate_sends w hxr hr hserve (sends_granted p d)
      obtain ⟨y', e2, i2, c2, o2, s2⟩ := turn_sends w hrun hp hans
      rw [e1, e2]
      refine h.update ⟨rfl, h.world, ?_, ?_, ?_⟩ rfl ⟨by rw [i1, i2, b1], by rw [o1, o2, b2], by rw [s1, s2], fun _ => ⟨?_, ?_⟩⟩
        (fun c' d' _ hh => ?_) (fun c' d' _ hh f hfm => h.apart c' d' hh f (hsub f hfm)) (fun d' _ hd => ?_)
      · intro id
        simp only [amInsert, List.map_cons, List.mem_cons, amErase_keys, List.mem_filter, ← h.keys, hid]
        by_cases hi : id = cstr busid
        · simp [hi]
        · simp [hi]
      · intro e he
        simp only [amInsert, List.mem_cons, amErase_mem] at he
        rcases he with rfl | he
        · rfl
        · exact h.named e he.1
      · exact h.nodup.sublist (List.eraseP_sublist.map _)
      · rw [c1, c2]; rfl
      · rw [c2]
        intro d' hd
        simp only [Option.some.injEq] at hd
        subst hd
        exact amGet_insert_self
      · exact amGet_insert_ne (fun e => h.apart c' d' hh d hmem e.symm)
      · rw [c2] at hd
        simp only [Option.some.injEq] at hd
        subst hd
        exact ⟨hnew, fun c' d' _ hh' => h.apart c' d' hh' d hmem⟩

theorem Tracks.leave {σ} {env : Env σ} {p : Profile} {s : Sys σ} {t : Server σ} (h : Tracks s t) {c : Nat} {x : Conn}
    {y : Client} (hy : t.clients c = some y) (hrun : y.status = .running)
    (hb : Bond s.shared.used x y) (w : WriteRes) {e : ErrKind} (hr : readCommand p x.input = .err e) :
    Tracks ⟨(x.iterate env p s.shared w).1, setConn s.conns c (x.iterate env p s.shared w).2⟩
      ((t.leave y e).1.set c (t.leave y e).2) := by
  obtain ⟨b1, b2, b3, b4⟩ := hb
  obtain ⟨bc, bd⟩ := b4 hrun
  have hst : (if e = ErrKind.unexpectedEof then Status.closed else .failed e) ≠ .running := by split <;> simp
  unfold Conn.iterate
  rw [hr]
  dsimp only
  cases hdev : y.device with
  | none =>
    have hcur : x.current = none := by rw [bc, hdev]; rfl
    rw [hcur]
    simp only [Shared.release, Server.leave, hdev]
    have hf : t.away.filter (fun id => !(none : Option Device).toList.any (fun d => d.busId == id)) = t.away := by
      simp
    rw [hf]
    refine h.update ⟨by simp [h.free], h.world, h.keys, h.named, by simpa using h.nodup⟩ rfl
      ⟨b1, b2, rfl, fun hr => absurd hr hst⟩ (fun _ _ _ _ => rfl)
      (fun c' d _ hh f hf => h.apart c' d hh f (by simpa using hf)) (fun d hr _ => absurd hr hst)
  | some d =>
    have hcur : x.current = some d.busId := by rw [bc, hdev]; rfl
    rw [hcur]
    have hg := bd d hdev
    simp only [Shared.release, hg, Server.leave, hdev]
    have hh : t.Has c d := ⟨y, hy, hrun, hdev⟩
    refine h.update ⟨by simp [h.free], h.world, ?_, ?_, ?_⟩ rfl
      ⟨b1, b2, rfl, fun hr => absurd hr hst⟩ (fun c' d' hne hh' => ?_)
      (fun c' d' hne hh' f hf => ?_) (fun d hr _ => absurd hr hst)
    · intro id
      simp only [amErase_keys, List.mem_filter, h.keys]
      simp only [Option.toList, List.any_cons, List.any_nil, Bool.or_false, decide_eq_true_eq, Bool.not_eq_true',
        beq_eq_false_iff_ne, ne_eq]
      exact ⟨fun ⟨a, b⟩ => ⟨a, fun e => b e.symm⟩, fun ⟨a, b⟩ => ⟨a, fun e => b e.symm⟩⟩
    · intro e he
      exact h.named e (amErase_mem.mp he).1
    · simp only [Option.toList, List.map_append, List.map_cons, List.map_nil]
      rw [List.nodup_append]
      refine ⟨h.nodup, by simp, ?_⟩
      intro a ha b hb
      simp only [List.mem_singleton] at hb
      subst hb
      obtain ⟨f, hf, rfl⟩ := List.mem_map.mp ha
      exact h.apart c d hh f hf
    · exact amGet_erase_ne (fun e => hne (h.distinct c c' d d' hh hh' e.symm).symm)
    · simp only [Option.toList, List.mem_append, List.mem_singleton] at hf
      rcases hf with hf | rfl
      · exact h.apart c' d' hh' f hf
      · intro e
        exact hne (h.distinct c c' f d' hh hh' e).symm

theorem Tracks.step {σ} {env : Env σ} {p : Profile} {s : Sys σ} {t : Server σ} (h : Tracks s t) (e : Event σ)
    (he : ∀ d, e = .addDevice d → t.Unclaimed d.busId) : Tracks (s.step env p e) (t.step env p e) := by
  cases e with
  | connect c input =>
    simp only [Sys.step, Server.step]
    rcases h.conns c with ⟨h1, h2⟩ | ⟨x, y, h1, h2, _⟩
    · rw [h1, h2]
      simp only [Option.isSome_none, Bool.false_eq_true, if_false]
      refine h.update h.toTables rfl ⟨rfl, rfl, rfl, fun _ => ⟨rfl, fun d hd => by simp at hd⟩⟩
        (fun _ _ _ _ => rfl) (fun c' d _ hh => h.apart c' d hh) (fun d _ hd => by simp at hd)
    · rw [h1, h2]
      exact h
  | iterate c w =>
    simp only [Sys.step, Server.step]
    rcases h.conns c with ⟨h1, h2⟩ | ⟨x, y, h1, h2, hb⟩
    · rw [h1, h2]; exact h
    · rw [h1, h2]
      dsimp only
      rw [hb.2.2.1]
      by_cases hrun : y.status = .running
      · rw [if_pos hrun, if_pos hrun]
        have hp := parse_read p x.input.bytes x.input.fin
        cases hq : parse p.debugAssertions x.input.bytes with
        | request r rest =>
          rw [hq] at hp
          obtain ⟨cmd, hr, rfl⟩ := hp
          exact h.request h1 h2 hrun hb w hr hq
        | incomplete =>
          rw [hq] at hp
          have := h.leave (env := env) (c := c) h2 hrun hb w hp
          rw [hb.1] at hq this
          have ht : t.turn env p y w = t.leave y y.input.fin := by unfold Server.turn; rw [hq]
          rw [ht]
          exact this
        | refused =>
          rw [hq] at hp
          have := h.leave (env := env) (c := c) h2 hrun hb w hp
          rw [hb.1] at hq
          have ht : t.turn env p y w = t.leave y .other := by unfold Server.turn; rw [hq]
          rw [ht]
          exact this
        | crash =>
          rw [hq] at hp
          have hit : x.iterate env p s.shared w = (s.shared, { x with status := .panicked }) := by
            unfold Conn.iterate
            have hp' : readCommand p x.input = .panic := hp
            rw [hp']
          rw [hb.1] at hq
          have ht : t.turn env p y w = (t, { y with status := .panicked }) := by unfold Server.turn; rw [hq]
          rw [hit, ht]
          refine h.update h.toTables rfl ⟨hb.1, hb.2.1, rfl, fun hr => by simp at hr⟩
            (fun _ _ _ _ => rfl) (fun c' d _ hh => h.apart c' d hh) (fun d hr _ => by simp at hr)
      · rw [if_neg hrun, if_neg hrun]
        exact h
  | cancel c =>
    simp only [Sys.step, Server.step]
    rcases h.conns c with ⟨h1, h2⟩ | ⟨x, y, h1, h2, hb⟩
    · rw [h1, h2]; exact h
    · rw [h1, h2]
      dsimp only
      rw [hb.2.2.1]
      by_cases hrun : y.status = .running
      · rw [if_pos hrun, if_pos hrun]
        refine h.update h.toTables rfl ⟨hb.1, hb.2.1, rfl, fun hr => by simp at hr⟩
          (fun _ _ _ _ => rfl) (fun c' d _ hh => h.apart c' d hh) (fun d hr _ => by simp at hr)
      · rw [if_neg hrun, if_neg hrun]
        exact h
  | addDevice d =>
    obtain ⟨u1, u2⟩ := he d rfl
    refine ⟨⟨by simp [Sys.step, Server.step, Shared.addDevice, h.free], h.world, h.keys, h.named, ?_⟩, h.conns, ?_, h.distinct⟩
    · simp only [Server.step, List.map_append, List.map_cons, List.map_nil]
      rw [List.nodup_append]
      refine ⟨h.nodup, by simp, ?_⟩
      intro a ha b hb
      simp only [List.mem_singleton] at hb
      subst hb
      obtain ⟨f, hf, rfl⟩ := List.mem_map.mp ha
      exact u1 f hf
    · intro c d' hh f hf
      simp only [Server.step, List.mem_append, List.mem_singleton] at hf
      rcases hf with hf | rfl
      · exact h.apart c d' hh f hf
      · obtain ⟨y, hy, hr, hd⟩ := hh
        exact fun e => u2 c y d' hy hr hd e.symm
  | removeDevice id =>
    have hs : s.step env p (.removeDevice id) =
        ⟨{ s.shared with available := s.shared.available.eraseP (fun d => d.busId == id) }, s.conns⟩ := by
      simp only [Sys.step, Shared.removeDevice, takeFirst_eq]
      cases hf : s.shared.available.find? (fun d => d.busId == id) with
      | some d => rfl
      | none =>
        have : s.shared.available.eraseP (fun d => d.busId == id) = s.shared.available := by
          rw [List.eraseP_of_forall_not]
          simpa using hf
        rw [this]
        simp only [Option.map_none]
        split <;> rfl
    rw [hs]
    refine ⟨⟨by simp [Server.step, h.free], h.world, h.keys, h.named, ?_⟩, h.conns, ?_, h.distinct⟩
    · exact h.nodup.sublist (List.eraseP_sublist.map _)
    · intro c d hh f hf
      exact h.apart c d hh f (List.mem_of_mem_eraseP hf)
  | user f crash =>
    refine ⟨⟨h.free, ?_, h.keys, h.named, h.nodup⟩, h.conns, h.apart, h.distinct⟩
    simp only [Sys.step, Server.step, h.world]
    cases crash with
    | none => simp [World.used]
    | some k =>
      cases k <;> simp only [World.used, World.poison, World.mk.injEq, true_and, reduceCtorEq, decide_false, Bool.or_false,
        and_true, Option.some.injEq, HandlerId.iface.injEq, HandlerId.dev.injEq] <;> funext j
      all_goals
        rename_i a
        by_cases e : j = a
        · simp [e]
        · simp [e, Ne.symm e]

theorem Tracks.run {σ} {env : Env σ} {p : Profile} (es : List (Event σ)) : ∀ {s : Sys σ} {t : Server σ},
    Tracks s t → Tidy env p t es → Tracks (s.run env p es) (t.run env p es) := by
  induction es with
  | nil => intro s t h _; exact h
  | cons e es ih =>
    intro s t h ht
    refine ih (h.step e ?_) ht.2
    rintro d rfl
    exact ht.1

theorem Tracks.alike {σ} {s : Sys σ} {t : Server σ} (h : Tracks s t) : Alike s t where
  free := h.free
  world := h.world
  removal id := by
    simp only [Shared.removeDevice, Server.removal, takeFirst_eq, h.free]
    cases hf : t.free.find? (fun d => d.busId == id) with
    | some d =>
      have hid : d.busId = id := by have := List.find?_some hf; simpa using this
      have hex : ∃ d ∈ t.free, d.busId = id := ⟨d, List.mem_of_find?_eq_some hf, hid⟩
      simp only [Option.map_some, if_pos hex]
    | none =>
      have hex : ¬ ∃ d ∈ t.free, d.busId = id := by
        rintro ⟨d, hd, he⟩
        rw [List.find?_eq_none] at hf
        exact hf d hd (by simp [he])
      rw [if_neg hex]
      have : s.shared.used.any (fun e => e.2.busId == id) = true ↔ id ∈ t.away := by
        rw [← h.keys, List.any_eq_true, List.mem_map]
        constructor
        · rintro ⟨e, he, hh⟩
          exact ⟨e, he, by rw [← h.named e he]; simpa using hh⟩
        · rintro ⟨e, he, hh⟩
          exact ⟨e, he, by rw [h.named e he]; simpa using hh⟩
      simp only [Option.map_none]
      by_cases ha : id ∈ t.away
      · rw [if_pos ha, if_pos (this.mpr ha)]
      · rw [if_neg ha, if_neg (fun hh => ha (this.mp hh))]
  conns c := by
    unfold Seen
    rcases h.conns c with ⟨h1, h2⟩ | ⟨x, y, h1, h2, b1, b2, b3, _⟩
    · rw [h1, h2]; rfl
    · rw [h1, h2]
      simp [b1, b2, b3]

/-! ### On the network -/

/-- Reading waits exactly while there is no whole request. -/
theorem waits_iff (p : Profile) (bs : Bytes) :
    (readCommand p : Rd Arrived Cmd) ⟨bs⟩ = .diverge ↔ parse p.debugAssertions bs = .incomplete := by
  have he := early_readCommand p bs
  have hp := fun fin => parse_read p bs fin
  constructor
  · intro h
    rw [h] at he
    have h1 := hp .unexpectedEof
    have h2 := hp .other
    rw [he] at h1
    cases hq : parse p.debugAssertions bs with
    | incomplete => rfl
    | request r rest => rw [hq] at h1; obtain ⟨_, h1, _⟩ := h1; simp at h1
    | refused => rw [hq] at h1; simp [Spec.Parsed.Is] at h1
    | crash => rw [hq] at h1; simp [Spec.Parsed.Is] at h1
  · intro h
    rw [h] at hp
    have h1 : (readCommand p : Rd Stream Cmd) ⟨bs, .unexpectedEof⟩ = .err .unexpectedEof := hp .unexpectedEof
    have h2 : (readCommand p : Rd Stream Cmd) ⟨bs, .other⟩ = .err .other := hp .other
    cases hr : (readCommand p : Rd Arrived Cmd) ⟨bs⟩ with
    | diverge => rfl
    | ok r =>
      obtain ⟨a, r⟩ := r
      rw [hr] at he
      have := he [] .other
      rw [List.append_nil, h2] at this
      simp at this
    | err e =>
      rw [hr] at he
      have e1 := he [] .other
      have e2 := he [] .unexpectedEof
      rw [List.append_nil] at e1 e2
      rw [h2] at e1
      rw [h1, ← e1] at e2
      simp at e2
    | panic =>
      rw [hr] at he
      have := he [] .other
      rw [List.append_nil, h2] at this
      simp at this

/-- The two servers and who has ended. -/
structure TracksNet {σ} (n : Net σ) (l : Live σ) : Prop where
  sys : Tracks n.sys l.server
  ended : ∀ c, (n.ended c).isSome = l.ended c

/-- Changing what a connection has yet to read. -/
theorem Tracks.input {σ} {s : Sys σ} {t : Server σ} (h : Tracks s t) {c : Nat} {x : Conn} {y : Client}
    (hx : s.conns c = some x) (hy : t.clients c = some y) (i : Stream) :
    Tracks ⟨s.shared, setConn s.conns c { x with input := i }⟩ (t.set c { y with input := i }) := by
  rcases h.conns c with ⟨h1, _⟩ | ⟨x', y', h1, h2, b1, b2, b3, b4⟩
  · rw [h1] at hx; simp at hx
  · rw [hx] at h1
    rw [hy] at h2
    simp only [Option.some.injEq] at h1 h2
    subst h1 h2
    refine h.update h.toTables rfl ⟨rfl, b2, b3, b4⟩ (fun _ _ _ _ => rfl) (fun c' d _ hh => h.apart c' d hh)
      (fun d hr hd => ?_)
    have hh : t.Has c d := ⟨y, hy, hr, hd⟩
    exact ⟨h.apart c d hh, fun c' d' hne hh' he => hne (h.distinct c c' d d' hh hh' he).symm⟩

theorem TracksNet.step {σ} {env : Env σ} {p : Profile} {n : Net σ} {l : Live σ} (h : TracksNet n l) (e : NetEvent σ)
    (he : ∀ d, e = .addDevice d → l.server.Unclaimed d.busId) : TracksNet (n.step env p e) (l.step env p e) := by
  obtain ⟨hs, hn⟩ := h
  cases e with
  | connect c => exact ⟨hs.step (env := env) (p := p) (.connect c ⟨[], .unexpectedEof⟩) (fun d hd => nomatch hd), hn⟩
  | cancel c => exact ⟨hs.step (env := env) (p := p) (.cancel c) (fun d hd => nomatch hd), hn⟩
  | addDevice d => exact ⟨hs.step (env := env) (p := p) (.addDevice d) (fun d' hd => by cases hd; exact he d rfl), hn⟩
  | removeDevice id => exact ⟨hs.step (env := env) (p := p) (.removeDevice id) (fun d hd => nomatch hd), hn⟩
  | user f crash => exact ⟨hs.step (env := env) (p := p) (.user f crash) (fun d hd => nomatch hd), hn⟩
  | arrive c bs =>
    simp only [Net.step, Live.step]
    rcases hs.conns c with ⟨h1, h2⟩ | ⟨x, y, h1, h2, b1, _⟩
    · rw [h1, h2]; exact ⟨hs, hn⟩
    · rw [h1, h2]
      have := hn c
      cases hc : n.ended c with
      | some e => rw [hc] at this; simp only [← this]; exact ⟨hs, hn⟩
      | none =>
        rw [hc] at this
        simp only [← this]
        refine ⟨?_, hn⟩
        have := hs.input h1 h2 ⟨x.input.bytes ++ bs, x.input.fin⟩
        rw [b1] at this ⊢
        exact this
  | hangup c e =>
    simp only [Net.step, Live.step]
    rcases hs.conns c with ⟨h1, h2⟩ | ⟨x, y, h1, h2, b1, _⟩
    · rw [h1, h2]; exact ⟨hs, hn⟩
    · rw [h1, h2]
      have := hn c
      cases hc : n.ended c with
      | some e => rw [hc] at this; simp only [← this]; exact ⟨hs, hn⟩
      | none =>
        rw [hc] at this
        simp only [← this]
        refine ⟨?_, ?_⟩
        · have := hs.input h1 h2 ⟨x.input.bytes, e⟩
          rw [b1] at this ⊢
          exact this
        · intro c'
          by_cases hcc : c' = c
          · simp [hcc]
          · simp [hcc, hn c']
  | iterate c w =>
    have hr : n.ready p c = l.due p c := by
      unfold Net.ready Live.due
      rcases hs.conns c with ⟨h1, h2⟩ | ⟨x, y, h1, h2, b1, _⟩
      · rw [h1, h2]
      · rw [h1, h2]
        dsimp only
        rw [← hn c, b1]
        cases hc : n.ended c with
        | some e => rfl
        | none =>
          have hw := waits_iff p y.input.bytes
          dsimp only [Option.isSome_none]
          rw [Bool.false_or]
          by_cases hi : parse p.debugAssertions y.input.bytes = .incomplete
          · rw [hw.mpr hi, hi]; rfl
          · have : (readCommand p : Rd Arrived Cmd) ⟨y.input.bytes⟩ ≠ .diverge := fun h => hi (hw.mp h)
            rw [bne_iff_ne.mpr hi]
            cases hq : (readCommand p : Rd Arrived Cmd) ⟨y.input.bytes⟩ with
            | diverge => exact absurd hq this
            | ok r => rfl
            | err e => rfl
            | panic => rfl
    simp only [Net.step, Live.step, hr]
    split
    · exact ⟨hs.step (.iterate c w) (fun d hd => nomatch hd), hn⟩
    · exact ⟨hs, hn⟩

theorem TracksNet.run {σ} {env : Env σ} {p : Profile} (es : List (NetEvent σ)) : ∀ {n : Net σ} {l : Live σ},
    TracksNet n l → TidyLive env p l es → TracksNet (n.run env p es) (l.run env p es) := by
  induction es with
  | nil => intro n l h _; exact h
  | cons e es ih =>
    intro n l h ht
    refine ih (h.step e ?_) ht.2
    rintro d rfl
    exact ht.1

end Usbip
