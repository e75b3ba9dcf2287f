import Verif.Lemmas.Frame
import Verif.Spec.Quota
/-! Compositional bounds on the memory a reader reserves. -/

namespace Usbip
open Spec

/-- The reader reserves at most `c` bytes, whatever it is sent. -/
def Bounded {α} (x : Rd Quota α) (c : Nat) : Prop :=
  ∀ q, q.used + c ≤ q.limit → x q ≠ .diverge ∧
    ∀ a q', x q = .ok (a, q') → q'.used ≤ q.used + c ∧ q'.limit = q.limit

theorem bounded_pure {α} (a : α) (c : Nat) : Bounded (pure a) c := by
  intro q _
  refine ⟨by simp, fun b q' h => ?_⟩
  simp only [rd_pure, Outcome.ok.injEq, Prod.mk.injEq] at h
  obtain ⟨_, rfl⟩ := h
  exact ⟨by omega, rfl⟩

theorem bounded_err {α} (e : ErrKind) (c : Nat) : Bounded (rdErr e : Rd Quota α) c := by
  intro q _; simp

theorem bounded_panic {α} (c : Nat) : Bounded (fun _ => .panic : Rd Quota α) c := by
  intro q _; simp

theorem bounded_assert (p : Profile) (b : Bool) (c : Nat) : Bounded (rdAssert p b) c := by
  intro q _
  refine ⟨?_, fun a q' h => ?_⟩
  · rw [rdAssert_apply]
    unfold debugAssert
    split <;> simp [Bind.bind, Outcome.bind]
  · obtain ⟨_, rfl⟩ := assert_inv h
    exact ⟨by omega, rfl⟩

theorem bounded_readExact (n c : Nat) (h : n ≤ c) : Bounded (readExact n) c := by
  intro q hq
  change Quota.readExact n q ≠ _ ∧ ∀ a q', Quota.readExact n q = _ → _
  unfold Quota.readExact
  rw [if_pos (by omega)]
  split
  · refine ⟨by simp, fun a q' h => ?_⟩
    simp only [Outcome.ok.injEq, Prod.mk.injEq] at h
    obtain ⟨_, rfl⟩ := h
    exact ⟨by dsimp only; omega, rfl⟩
  · simp

theorem bounded_bind {α β} {x : Rd Quota α} {f : α → Rd Quota β} (c d e : Nat) (he : c + d ≤ e)
    (hx : Bounded x c) (hf : ∀ a, Bounded (f a) d) : Bounded (x >>= f) e := by
  intro q hq
  obtain ⟨h1, h2⟩ := hx q (by omega)
  rw [rd_bind]
  cases h : x q with
  | ok r =>
    obtain ⟨h3, h4⟩ := h2 r.1 r.2 h
    obtain ⟨h5, h6⟩ := hf r.1 r.2 (by omega)
    refine ⟨h5, fun a q' hh => ?_⟩
    obtain ⟨h7, h8⟩ := h6 a q' hh
    exact ⟨by omega, h8.trans h4⟩
  | err e => simp [Bind.bind, Outcome.bind]
  | panic => simp [Bind.bind, Outcome.bind]
  | diverge => exact absurd h h1

theorem bounded_ite {α} {b : Prop} [Decidable b] {x y : Rd Quota α} {c : Nat}
    (hx : b → Bounded x c) (hy : ¬ b → Bounded y c) : Bounded (if b then x else y) c := by
  split
  · exact hx ‹_›
  · exact hy ‹_›

theorem bounded_readU16 : Bounded readU16 2 := by
  refine bounded_bind 2 0 2 (by omega) (bounded_readExact 2 2 (by omega)) ?_
  intro bs
  split
  · exact bounded_pure _ _
  · exact bounded_panic _

theorem bounded_readU32 : Bounded readU32 4 := by
  refine bounded_bind 4 0 4 (by omega) (bounded_readExact 4 4 (by omega)) ?_
  intro bs
  split
  · exact bounded_pure _ _
  · exact bounded_panic _

theorem bounded_readHeader (p : Profile) (c : UInt16) : Bounded (readHeader p c) 16 := by
  unfold readHeader
  refine bounded_bind 4 12 _ (by omega) bounded_readU32 fun _ => ?_
  refine bounded_bind 4 8 _ (by omega) bounded_readU32 fun _ => ?_
  refine bounded_bind 4 4 _ (by omega) bounded_readU32 fun _ => ?_
  refine bounded_bind 0 4 _ (by omega) (bounded_assert _ _ _) fun _ => ?_
  refine bounded_bind 4 0 _ (by omega) bounded_readU32 fun _ => ?_
  exact bounded_pure _ _

/-- The fixed part of a submit after the command code. -/
def readHead {S} [Source S] (p : Profile) :
    Rd S (Header × UInt32 × UInt32 × UInt32 × UInt32 × UInt32 × Bytes) := do
  let header ← readHeader p USBIP_CMD_SUBMIT
  let transferFlags ← readU32
  let transferBufferLength ← readU32
  let startFrame ← readU32
  let numberOfPackets ← readU32
  let interval ← readU32
  let setup ← readExact 8
  return (header, transferFlags, transferBufferLength, startFrame, numberOfPackets, interval, setup)

/-- The rest of it. -/
def readTail {S} [Source S] :
    Header × UInt32 × UInt32 × UInt32 × UInt32 × UInt32 × Bytes → Rd S Cmd
  | (header, transferFlags, transferBufferLength, startFrame, numberOfPackets, interval, setup) => do
    let data ← (if header.direction = dirIn then pure []
      else readExact transferBufferLength.toNat : Rd S Bytes)
    let iso ← (if numberOfPackets ≠ 0 ∧ numberOfPackets ≠ 0xFFFFFFFF then
        readExact (16 * numberOfPackets.toNat)
      else pure [] : Rd S Bytes)
    return .submit header transferFlags transferBufferLength startFrame numberOfPackets interval
      setup data iso

theorem rd_bind_assoc {S α β γ} (x : Rd S α) (f : α → Rd S β) (g : β → Rd S γ) :
    (x >>= f) >>= g = x >>= fun a => f a >>= g := by
  funext s
  simp only [rd_bind]
  cases x s <;> rfl

theorem rd_pure_bind {S α β} (a : α) (f : α → Rd S β) : (pure a : Rd S α) >>= f = f a := rfl

theorem readSubmit_split {S} [Source S] (p : Profile) :
    (readSubmit p : Rd S Cmd) = readHead p >>= readTail := by
  unfold readSubmit readHead
  simp only [rd_bind_assoc, rd_pure_bind, readTail]

theorem bounded_readHead (p : Profile) : Bounded (readHead p) 44 := by
  unfold readHead
  refine bounded_bind 16 28 _ (by omega) (bounded_readHeader _ _) fun _ => ?_
  refine bounded_bind 4 24 _ (by omega) bounded_readU32 fun _ => ?_
  refine bounded_bind 4 20 _ (by omega) bounded_readU32 fun _ => ?_
  refine bounded_bind 4 16 _ (by omega) bounded_readU32 fun _ => ?_
  refine bounded_bind 4 12 _ (by omega) bounded_readU32 fun _ => ?_
  refine bounded_bind 4 8 _ (by omega) bounded_readU32 fun _ => ?_
  refine bounded_bind 8 0 _ (by omega) (bounded_readExact _ _ (by omega)) fun _ => ?_
  exact bounded_pure _ _

theorem bounded_readTail (h : Header) (a len b n c : UInt32) (s : Bytes) :
    Bounded (readTail (h, a, len, b, n, c, s))
      ((if h.direction.toNat = 1 then 0 else len.toNat) + if hasIso n then 16 * n.toNat else 0) := by
  refine bounded_bind _ _ _ (Nat.le_refl _) (bounded_ite (fun hd => ?_) (fun hd => ?_)) fun _ => ?_
  · rw [if_pos ((dirIn_iff _).1 hd)]; exact bounded_pure _ _
  · rw [if_neg (fun hh => hd ((dirIn_iff _).2 hh))]; exact bounded_readExact _ _ (Nat.le_refl _)
  · refine bounded_bind (if hasIso n then 16 * n.toNat else 0) 0 _ (Nat.le_refl _) (bounded_ite (fun hd => ?_) (fun hd => ?_)) fun _ => ?_
    · rw [if_pos ((hasIso_iff n).1 hd)]; exact bounded_readExact _ _ (Nat.le_refl _)
    · exact bounded_pure _ _
    · exact bounded_pure _ _

theorem bounded_readUnlink (p : Profile) : Bounded (readUnlink p) 44 := by
  unfold readUnlink
  refine bounded_bind 16 28 _ (by omega) (bounded_readHeader _ _) fun _ => ?_
  refine bounded_bind 4 24 _ (by omega) bounded_readU32 fun _ => ?_
  refine bounded_bind 24 0 _ (by omega) (bounded_readExact _ _ (by omega)) fun _ => ?_
  exact bounded_pure _ _

/-! ## Enough memory -/

/-- If `y` succeeds on the plain stream, `x` does the same with memory for the bytes used. -/
def Enough {α} (x : Rd Quota α) (y : Rd Stream α) : Prop :=
  ∀ s a s', y s = .ok (a, s') → s'.bytes.length ≤ s.bytes.length ∧
    ∀ u l, u + s.bytes.length ≤ l + s'.bytes.length →
      ∃ u', u' + s'.bytes.length = u + s.bytes.length ∧ x ⟨s, u, l⟩ = .ok (a, ⟨s', u', l⟩)

theorem enough_pure {α} (a : α) : Enough (pure a) (pure a) := by
  intro s b s' h
  simp only [rd_pure, Outcome.ok.injEq, Prod.mk.injEq] at h
  obtain ⟨rfl, rfl⟩ := h
  exact ⟨Nat.le_refl _, fun u l _ => ⟨u, rfl, rfl⟩⟩

theorem enough_err {α} (e : ErrKind) : Enough (rdErr e : Rd Quota α) (rdErr e) := by
  intro s b s' h; simp at h

theorem enough_panic {α} : Enough (fun _ => .panic : Rd Quota α) (fun _ => .panic) := by
  intro s b s' h; simp at h

theorem enough_assert (p : Profile) (c : Bool) : Enough (rdAssert p c) (rdAssert p c) := by
  intro s a s' h
  obtain ⟨hc, rfl⟩ := assert_inv h
  exact ⟨Nat.le_refl _, fun u l _ => ⟨u, rfl, assert_ok_apply p _ hc⟩⟩

theorem enough_readExact (n : Nat) : Enough (readExact n) (readExact n) := by
  intro s a s' h
  simp only [stream_readExact, Stream.readExact] at h
  split at h
  · rename_i hn
    simp only [Outcome.ok.injEq, Prod.mk.injEq] at h
    obtain ⟨rfl, rfl⟩ := h
    simp only [List.length_drop]
    refine ⟨by omega, fun u l hu => ⟨u + n, by omega, ?_⟩⟩
    change Quota.readExact n _ = _
    unfold Quota.readExact
    rw [if_pos (by dsimp only; omega), if_pos hn]
  · simp at h

theorem enough_bind {α β} {x : Rd Quota α} {y : Rd Stream α} {f : α → Rd Quota β}
    {g : α → Rd Stream β} (h : Enough x y) (hf : ∀ a, Enough (f a) (g a)) :
    Enough (x >>= f) (y >>= g) := by
  intro s b s' hh
  rw [rd_bind, Outcome.bind_eq_ok] at hh
  obtain ⟨⟨a, s1⟩, h1, h2⟩ := hh
  obtain ⟨l1, e1⟩ := h _ _ _ h1
  obtain ⟨l2, e2⟩ := hf a _ _ _ h2
  refine ⟨Nat.le_trans l2 l1, fun u l hu => ?_⟩
  obtain ⟨u1, k1, r1⟩ := e1 u l (by dsimp only at *; omega)
  obtain ⟨u2, k2, r2⟩ := e2 u1 l (by dsimp only at *; omega)
  refine ⟨u2, by dsimp only at *; omega, ?_⟩
  rw [rd_bind, r1]
  exact r2

theorem enough_ite {α} {c : Prop} [Decidable c] {x x' : Rd Quota α} {y y' : Rd Stream α}
    (h : Enough x y) (h' : Enough x' y') : Enough (if c then x else x') (if c then y else y') := by
  split <;> assumption

theorem enough_readU16 : Enough readU16 readU16 := by
  refine enough_bind (enough_readExact 2) ?_
  intro bs
  split
  · exact enough_pure _
  · exact enough_panic

theorem enough_readU32 : Enough readU32 readU32 := by
  refine enough_bind (enough_readExact 4) ?_
  intro bs
  split
  · exact enough_pure _
  · exact enough_panic

theorem enough_readHead (p : Profile) : Enough (readHead p) (readHead p) := by
  unfold readHead readHeader
  repeat' first
    | exact enough_readU32 | exact enough_readExact _
    | exact enough_assert _ _ | exact enough_pure _
    | refine enough_bind ?_ ?_ | intro _

theorem enough_readCommand (p : Profile) : Enough (readCommand p) (readCommand p) := by
  unfold readCommand readSubmit readUnlink readHeader
  repeat' first
    | exact enough_readU16 | exact enough_readU32 | exact enough_readExact _
    | exact enough_assert _ _ | exact enough_pure _ | exact enough_err _
    | refine enough_bind ?_ ?_ | refine enough_ite ?_ ?_ | intro _

theorem quota_readExact_inv {n : Nat} {q q' : Quota} {bs : Bytes}
    (h : (readExact n : Rd Quota Bytes) q = .ok (bs, q')) :
    bs.length = n ∧ q.stream.bytes = bs ++ q'.stream.bytes := by
  have h : Quota.readExact n q = .ok (bs, q') := h
  unfold Quota.readExact at h
  split at h
  · split at h
    · simp only [Outcome.ok.injEq, Prod.mk.injEq] at h
      obtain ⟨rfl, rfl⟩ := h
      refine ⟨?_, (List.take_append_drop _ _).symm⟩
      rw [List.length_take]; omega
    · simp at h
  · simp at h

theorem quota_readU16_inv {q q' : Quota} {v : UInt16}
    (h : (readU16 : Rd Quota UInt16) q = .ok (v, q')) :
    q.stream.bytes = be16 v ++ q'.stream.bytes := by
  simp only [readU16, rd_bind, Outcome.bind_eq_ok] at h
  obtain ⟨⟨bs, q1⟩, h1, h2⟩ := h
  obtain ⟨hl, hs⟩ := quota_readExact_inv h1
  match bs, hl with
  | [a, b], _ =>
    simp only [rd_pure, Outcome.ok.injEq, Prod.mk.injEq] at h2
    obtain ⟨rfl, rfl⟩ := h2
    rw [be16_ofBe16]; exact hs

/-- Reading a submit once its fixed part is there. -/
theorem quota_submit (p : Profile) (v : UInt16) (hv : v = 0 ∨ v = USBIP_VERSION) (h : Header)
    (a len b n c : UInt32) (setup rest : Bytes) (fin : ErrKind) (l : Nat) (hl : 48 ≤ l)
    (hd : p.debugAssertions = true → h.direction.toNat ≤ 1) (hs : setup.length = 8)
    (hc : h.command.toNat = 1) :
    (readCommand p : Rd Quota Cmd) ⟨⟨be16 v ++ (be16 USBIP_CMD_SUBMIT ++ (be32 h.seqnum ++
      (be32 h.devid ++ (be32 h.direction ++ (be32 h.ep ++ (be32 a ++ (be32 len ++
        (be32 b ++ (be32 n ++ (be32 c ++ (setup ++ rest))))))))))), fin⟩, 0, l⟩ =
    readTail (h, a, len, b, n, c, setup) ⟨⟨rest, fin⟩, 48, l⟩ := by
  have e1 := (enough_readU16 _ _ _ (stream_readU16 v (be16 USBIP_CMD_SUBMIT ++ (be32 h.seqnum ++
      (be32 h.devid ++ (be32 h.direction ++ (be32 h.ep ++ (be32 a ++ (be32 len ++
        (be32 b ++ (be32 n ++ (be32 c ++ (setup ++ rest)))))))))) ) fin)).2 0 l
          (by simp only [List.length_append, be16_length]; omega)
  obtain ⟨u1, k1, r1⟩ := e1
  simp only [List.length_append, be16_length] at k1
  have hu1 : u1 = 2 := by omega
  subst hu1
  have e2 := (enough_readU16 _ _ _ (stream_readU16 USBIP_CMD_SUBMIT (be32 h.seqnum ++
      (be32 h.devid ++ (be32 h.direction ++ (be32 h.ep ++ (be32 a ++ (be32 len ++
        (be32 b ++ (be32 n ++ (be32 c ++ (setup ++ rest))))))))) ) fin)).2 2 l
          (by simp only [List.length_append, be16_length]; omega)
  obtain ⟨u2, k2, r2⟩ := e2
  simp only [List.length_append, be16_length] at k2
  have hu2 : u2 = 4 := by omega
  subst hu2
  have hhead : (readHead p : Rd Stream _) ⟨be32 h.seqnum ++
      (be32 h.devid ++ (be32 h.direction ++ (be32 h.ep ++ (be32 a ++ (be32 len ++
        (be32 b ++ (be32 n ++ (be32 c ++ (setup ++ rest))))))))), fin⟩ =
      .ok ((h, a, len, b, n, c, setup), ⟨rest, fin⟩) := by
    simp only [readHead, rd_bind]
    rw [readHeader_fwd p h USBIP_CMD_SUBMIT _ fin (by rw [hc]; rfl) hd]
    simp only [Outcome.bind_ok, stream_readU32]
    rw [stream_readExact_append setup _ fin 8 hs]
    rfl
  have e3 := (enough_readHead p _ _ _ hhead).2 4 l
          (by simp only [List.length_append, be32_length, hs]; omega)
  obtain ⟨u3, k3, r3⟩ := e3
  simp only [List.length_append, be32_length, hs] at k3
  have hu3 : u3 = 48 := by omega
  subst hu3
  simp only [readCommand, rd_bind]
  rw [r1, Outcome.bind_ok]
  rw [if_neg (by rcases hv with h | h <;> subst h <;> simp)]
  rw [rd_bind, r2, Outcome.bind_ok]
  dsimp only
  rw [if_neg (by decide), if_neg (by decide), if_pos rfl, readSubmit_split, rd_bind, r3]
  rfl

end Usbip
