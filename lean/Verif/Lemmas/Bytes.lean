import Verif.Model.Protocol
/-! Helper lemmas: big-endian bytes, `resize`, the reader monad. -/

namespace Usbip

theorem u8_ext {a b : UInt8} (h : a.toNat = b.toNat) : a = b := UInt8.toNat_inj.mp h
theorem u16_ext {a b : UInt16} (h : a.toNat = b.toNat) : a = b := UInt16.toNat_inj.mp h
theorem u32_ext {a b : UInt32} (h : a.toNat = b.toNat) : a = b := UInt32.toNat_inj.mp h

theorem u8_lt (a : UInt8) : a.toNat < 256 := UInt8.toNat_lt a
theorem u16_lt (a : UInt16) : a.toNat < 65536 := UInt16.toNat_lt a
theorem u32_lt (a : UInt32) : a.toNat < 4294967296 := UInt32.toNat_lt a

theorem ofBe16_be16 (x : UInt16) :
    ofBe16 (UInt8.ofNat (x.toNat / 256)) (UInt8.ofNat x.toNat) = x := by
  apply u16_ext
  have := u16_lt x
  simp only [ofBe16, UInt16.toNat_ofNat', UInt8.toNat_ofNat']
  omega

theorem ofBe32_be32 (x : UInt32) :
    ofBe32 (UInt8.ofNat (x.toNat / 16777216)) (UInt8.ofNat (x.toNat / 65536))
      (UInt8.ofNat (x.toNat / 256)) (UInt8.ofNat x.toNat) = x := by
  apply u32_ext
  have := u32_lt x
  simp only [ofBe32, UInt32.toNat_ofNat', UInt8.toNat_ofNat']
  omega

theorem be16_ofBe16 (a b : UInt8) : be16 (ofBe16 a b) = [a, b] := by
  have := u8_lt a
  have := u8_lt b
  simp only [be16, ofBe16, UInt16.toNat_ofNat', List.cons.injEq, and_true]
  constructor <;> apply u8_ext <;> simp only [UInt8.toNat_ofNat'] <;> omega

theorem be32_ofBe32 (a b c d : UInt8) : be32 (ofBe32 a b c d) = [a, b, c, d] := by
  have := u8_lt a
  have := u8_lt b
  have := u8_lt c
  have := u8_lt d
  simp only [be32, ofBe32, UInt32.toNat_ofNat', List.cons.injEq, and_true]
  refine ⟨?_, ?_, ?_, ?_⟩ <;> apply u8_ext <;> simp only [UInt8.toNat_ofNat'] <;> omega

@[simp] theorem be16_length (x : UInt16) : (be16 x).length = 2 := rfl
@[simp] theorem be32_length (x : UInt32) : (be32 x).length = 4 := rfl
@[simp] theorem Header.toBytes_length (h : Header) : h.toBytes.length = 20 := by
  simp [Header.toBytes]

theorem be16_inj {x y : UInt16} (h : be16 x = be16 y) : x = y := by
  simp only [be16, List.cons.injEq, and_true] at h
  rw [← ofBe16_be16 x, ← ofBe16_be16 y, h.1, h.2]

theorem be32_inj {x y : UInt32} (h : be32 x = be32 y) : x = y := by
  simp only [be32, List.cons.injEq, and_true] at h
  rw [← ofBe32_be32 x, ← ofBe32_be32 y, h.1, h.2.1, h.2.2.1, h.2.2.2]

@[simp] theorem resize_length (l : Bytes) (n : Nat) : (resize l n).length = n := by
  simp [resize]; omega

@[simp] theorem Outcome.bind_ok {α β} (a : α) (f : α → Outcome β) :
    (Outcome.ok a >>= f) = f a := rfl
@[simp] theorem Outcome.bind_err {α β} (e : ErrKind) (f : α → Outcome β) :
    ((Outcome.err e : Outcome α) >>= f) = .err e := rfl
@[simp] theorem Outcome.bind_panic {α β} (f : α → Outcome β) :
    ((Outcome.panic : Outcome α) >>= f) = .panic := rfl
@[simp] theorem Outcome.bind_diverge {α β} (f : α → Outcome β) :
    ((Outcome.diverge : Outcome α) >>= f) = .diverge := rfl
@[simp] theorem Outcome.pure_eq {α} (a : α) : (pure a : Outcome α) = .ok a := rfl

theorem Outcome.bind_eq_ok {α β} {x : Outcome α} {f : α → Outcome β} {b : β} :
    (x >>= f) = .ok b ↔ ∃ a, x = .ok a ∧ f a = .ok b := by
  cases x <;> simp

@[simp] theorem rd_bind {S α β} (x : Rd S α) (f : α → Rd S β) (s : S) :
    (x >>= f) s = (x s >>= fun r => f r.1 r.2) := rfl
@[simp] theorem rd_pure {S α} (a : α) (s : S) : (pure a : Rd S α) s = .ok (a, s) := rfl
@[simp] theorem rdErr_apply {S α} (e : ErrKind) (s : S) : (rdErr e : Rd S α) s = .err e := rfl
theorem rdAssert_apply {S} (p : Profile) (c : Bool) (s : S) :
    rdAssert p c s = (debugAssert p c >>= fun _ => .ok ((), s)) := rfl

theorem debugAssert_true (p : Profile) {c : Bool} (h : c = true) : debugAssert p c = .ok () := by
  simp [debugAssert, h]

theorem debugAssert_of (p : Profile) {c : Bool} (h : p.debugAssertions = true → c = true) :
    debugAssert p c = .ok () := by
  unfold debugAssert
  cases hp : p.debugAssertions <;> simp_all

theorem debugAssert_ok {p : Profile} {c : Bool} {u : Unit} (h : debugAssert p c = .ok u) :
    p.debugAssertions = true → c = true := by
  unfold debugAssert at h
  intro hp
  cases c <;> simp_all

theorem le16_toNat (lo hi : UInt8) :
    ((hi.toUInt16 <<< 8) ||| lo.toUInt16).toNat = hi.toNat * 256 + lo.toNat := by
  have h1 := u8_lt lo
  have h2 := u8_lt hi
  rw [UInt16.toNat_or, UInt16.toNat_shiftLeft]
  simp only [UInt8.toNat_toUInt16, show (8 : UInt16).toNat % 16 = 8 from rfl]
  rw [Nat.shiftLeft_eq, Nat.mod_eq_of_lt (by omega), ← Nat.shiftLeft_eq,
    ← Nat.shiftLeft_add_eq_or_of_lt (by omega), Nat.shiftLeft_eq]

/-! Reading from a whole stream. -/

theorem stream_readExact (n : Nat) (s : Stream) :
    (readExact n : Rd Stream Bytes) s = Stream.readExact n s := rfl

theorem stream_readExact_append (bs rest : Bytes) (fin : ErrKind) (n : Nat) (h : bs.length = n) :
    (readExact n : Rd Stream Bytes) ⟨bs ++ rest, fin⟩ = .ok (bs, ⟨rest, fin⟩) := by
  subst h
  simp [stream_readExact, Stream.readExact]

theorem stream_readU16 (x : UInt16) (rest : Bytes) (fin : ErrKind) :
    (readU16 : Rd Stream UInt16) ⟨be16 x ++ rest, fin⟩ = .ok (x, ⟨rest, fin⟩) := by
  simp only [readU16, rd_bind]
  rw [stream_readExact_append (be16 x) rest fin 2 rfl]
  simp only [be16, Outcome.bind_ok, rd_pure, ofBe16_be16]

theorem stream_readU32 (x : UInt32) (rest : Bytes) (fin : ErrKind) :
    (readU32 : Rd Stream UInt32) ⟨be32 x ++ rest, fin⟩ = .ok (x, ⟨rest, fin⟩) := by
  simp only [readU32, rd_bind]
  rw [stream_readExact_append (be32 x) rest fin 4 rfl]
  simp only [be32, Outcome.bind_ok, rd_pure, ofBe32_be32]

theorem stream_readExact_inv {n : Nat} {s s' : Stream} {bs : Bytes}
    (h : (readExact n : Rd Stream Bytes) s = .ok (bs, s')) :
    bs.length = n ∧ s = ⟨bs ++ s'.bytes, s'.fin⟩ := by
  simp only [stream_readExact, Stream.readExact] at h
  split at h
  · rename_i hn
    simp only [Outcome.ok.injEq, Prod.mk.injEq] at h
    obtain ⟨h1, h2⟩ := h
    subst h1; subst h2
    simp
    omega
  · simp at h

theorem stream_readU16_inv {s s' : Stream} {x : UInt16}
    (h : (readU16 : Rd Stream UInt16) s = .ok (x, s')) :
    s = ⟨be16 x ++ s'.bytes, s'.fin⟩ := by
  simp only [readU16, rd_bind, Outcome.bind_eq_ok] at h
  obtain ⟨⟨bs, s1⟩, h1, h2⟩ := h
  obtain ⟨hl, hs⟩ := stream_readExact_inv h1
  match bs, hl with
  | [a, b], _ =>
    simp only [rd_pure, Outcome.ok.injEq, Prod.mk.injEq] at h2
    obtain ⟨h3, h4⟩ := h2
    subst h3; subst h4
    rw [be16_ofBe16]; exact hs

theorem stream_readU32_inv {s s' : Stream} {x : UInt32}
    (h : (readU32 : Rd Stream UInt32) s = .ok (x, s')) :
    s = ⟨be32 x ++ s'.bytes, s'.fin⟩ := by
  simp only [readU32, rd_bind, Outcome.bind_eq_ok] at h
  obtain ⟨⟨bs, s1⟩, h1, h2⟩ := h
  obtain ⟨hl, hs⟩ := stream_readExact_inv h1
  match bs, hl with
  | [a, b, c, d], _ =>
    simp only [rd_pure, Outcome.ok.injEq, Prod.mk.injEq] at h2
    obtain ⟨h3, h4⟩ := h2
    subst h3; subst h4
    rw [be32_ofBe32]; exact hs

end Usbip
