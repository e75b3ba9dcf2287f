import Verif.Lemmas.Bytes
import Verif.Spec.Wire

namespace Usbip
open Spec

theorem bigEndian2 (x : UInt16) : bigEndian 2 x.toNat = be16 x := by
  have := u16_lt x
  simp only [bigEndian, be16, List.cons.injEq, and_true]
  constructor <;> apply u8_ext <;> simp only [UInt8.toNat_ofNat'] <;> omega

theorem bigEndian4 (x : UInt32) : bigEndian 4 x.toNat = be32 x := by
  have := u32_lt x
  simp only [bigEndian, be32, List.cons.injEq, and_true]
  refine ⟨?_, ?_, ?_, ?_⟩ <;> apply u8_ext <;> simp only [UInt8.toNat_ofNat'] <;> omega

theorem layout_cons (w v : Nat) (fs : List (Nat × Nat)) :
    layout ((w, v) :: fs) = bigEndian w v ++ layout fs := rfl
theorem layout_nil : layout [] = [] := rfl

theorem layout_append (a b : List (Nat × Nat)) : layout (a ++ b) = layout a ++ layout b := by
  simp [layout]

theorem layout_header (h : Header) : layout (headerFields h) = h.toBytes := by
  simp [headerFields, layout_cons, layout_nil, bigEndian4, Header.toBytes]

theorem be16_version : be16 USBIP_VERSION = [0x01, 0x11] := by decide
theorem be16_0 : be16 0 = [0, 0] := by decide
theorem be16_devlist : be16 OP_REQ_DEVLIST = [0x80, 0x05] := by decide
theorem be16_import : be16 OP_REQ_IMPORT = [0x80, 0x03] := by decide
theorem be16_submit : be16 USBIP_CMD_SUBMIT = [0, 1] := by decide
theorem be16_unlink : be16 USBIP_CMD_UNLINK = [0, 2] := by decide

theorem layout_op (c : UInt16) (st : UInt32) :
    layout [(2, 0x0111), (2, c.toNat), (4, st.toNat)] = be16 USBIP_VERSION ++ (be16 c ++ be32 st) := by
  have h : (0x0111 : Nat) = USBIP_VERSION.toNat := by decide
  rw [h]
  simp [layout_cons, layout_nil, bigEndian4, bigEndian2]

theorem wire_devlist (st : UInt32) : wireCmd (.reqDevlist st) =
    be16 USBIP_VERSION ++ be16 OP_REQ_DEVLIST ++ be32 st := by
  have := layout_op OP_REQ_DEVLIST st
  have h : OP_REQ_DEVLIST.toNat = 0x8005 := by decide
  rw [h] at this
  simp [wireCmd, this]

theorem wire_import (st : UInt32) (b : Bytes) : wireCmd (.reqImport st b) =
    be16 USBIP_VERSION ++ be16 OP_REQ_IMPORT ++ be32 st ++ b := by
  have := layout_op OP_REQ_IMPORT st
  have h : OP_REQ_IMPORT.toNat = 0x8003 := by decide
  rw [h] at this
  simp [wireCmd, this]

theorem wire_submit (h : Header) (a b c d e : UInt32) (s x i : Bytes) :
    wireCmd (.submit h a b c d e s x i) =
    h.toBytes ++ be32 a ++ be32 b ++ be32 c ++ be32 d ++ be32 e ++ s ++ x ++ i := by
  simp [wireCmd, layout_append, layout_header, layout_cons, layout_nil, bigEndian4]

theorem wire_unlink (h : Header) (u : UInt32) :
    wireCmd (.unlink h u) = h.toBytes ++ be32 u ++ List.replicate 24 0 := by
  simp [wireCmd, layout_append, layout_header, layout_cons, layout_nil, bigEndian4]

/-- the direction check -/
theorem dir_and_one (d : UInt32) : (d &&& 1 == d) = true ↔ d.toNat ≤ 1 := by
  rw [beq_iff_eq]
  constructor
  · intro h
    have := congrArg UInt32.toNat h
    rw [UInt32.toNat_and] at this
    have h1 : (1 : UInt32).toNat = 1 := rfl
    rw [h1, Nat.and_one_is_mod] at this
    omega
  · intro h
    apply u32_ext
    rw [UInt32.toNat_and]
    have h1 : (1 : UInt32).toNat = 1 := rfl
    rw [h1, Nat.and_one_is_mod]
    omega

theorem dirIn_iff (d : UInt32) : d = dirIn ↔ d.toNat = 1 := by
  constructor
  · intro h; subst h; rfl
  · intro h; exact u32_ext h

theorem dirOut_iff (d : UInt32) : d = dirOut ↔ d.toNat = 0 := by
  constructor
  · intro h; subst h; rfl
  · intro h; exact u32_ext h

theorem hasIso_iff (n : UInt32) : (n ≠ 0 ∧ n ≠ 0xFFFFFFFF) ↔ hasIso n := by
  unfold hasIso
  constructor
  · rintro ⟨h1, h2⟩
    exact ⟨fun h => h1 (u32_ext h), fun h => h2 (u32_ext h)⟩
  · rintro ⟨h1, h2⟩
    exact ⟨fun h => h1 (by rw [h]; rfl), fun h => h2 (by rw [h]; rfl)⟩

theorem header_cmd_split (h : Header) (c : UInt16) (hc : h.command.toNat = c.toNat) :
    h.toBytes = be16 0 ++ (be16 c ++ (be32 h.seqnum ++ (be32 h.devid ++
      (be32 h.direction ++ be32 h.ep)))) := by
  have hlt := u16_lt c
  have : be32 h.command = be16 0 ++ be16 c := by
    have h0 : (0 : UInt16).toNat = 0 := rfl
    simp only [be32, be16, List.cons_append, List.nil_append, List.cons.injEq, and_true, hc, h0]
    and_intros <;> apply u8_ext <;> simp only [UInt8.toNat_ofNat'] <;> omega
  simp [Header.toBytes, this]

end Usbip
