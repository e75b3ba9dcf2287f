import Verif.Lemmas.Quota
import Verif.Spec.Samples
/-!
# Memory reserved while reading (C50)
-/

namespace Usbip
open Spec Samples

/-- The fixed part of a submit as sent by a client (48 bytes). -/
def Spec.submitStart (h : Header) (flags len start npkts interval : UInt32) (setup : Bytes) : Bytes :=
  layout (headerFields h ++ [(4, flags.toNat), (4, len.toNat), (4, start.toNat),
    (4, npkts.toNat), (4, interval.toNat)]) ++ setup

theorem submitStart_eq (h : Header) (a len b n c : UInt32) (setup rest : Bytes)
    (hc : h.command.toNat = 1) : submitStart h a len b n c setup ++ rest =
    be16 0 ++ (be16 USBIP_CMD_SUBMIT ++ (be32 h.seqnum ++
      (be32 h.devid ++ (be32 h.direction ++ (be32 h.ep ++ (be32 a ++ (be32 len ++
        (be32 b ++ (be32 n ++ (be32 c ++ (setup ++ rest))))))))))) := by
  rw [submitStart, layout_append, layout_header,
    header_cmd_split h USBIP_CMD_SUBMIT (by rw [hc]; rfl)]
  simp [layout_cons, layout_nil, bigEndian4]

/-- C50 is false: for every constant `K` below 64 GiB - 32 there is a client that sends only the 48
bytes of a submit request and makes the server reserve more than `K` bytes on top of them. -/
theorem C50_fails (p : Profile) (fin : ErrKind) (K : Nat) (hK : K < 2 ^ 36 - 32) :
    ∃ bytes, bytes.length = 48 ∧ ¬ ReservesAtMost p (K + bytes.length) bytes fin := by
  let h : Header := { command := 1, seqnum := 1, devid := 1, direction := 1, ep := 1 }
  refine ⟨submitStart h 0 0 0 0xFFFFFFFE 0 [0, 0, 0, 0, 0, 0, 0, 0] ++ [], ?_, fun hr => hr ?_⟩
  · rw [submitStart_eq _ _ _ _ _ _ _ _ rfl]
    simp
  · have hlen : (submitStart h 0 0 0 0xFFFFFFFE 0 [0, 0, 0, 0, 0, 0, 0, 0] ++ []).length = 48 := by
      rw [submitStart_eq _ _ _ _ _ _ _ _ rfl]; simp
    rw [hlen, submitStart_eq _ _ _ _ _ _ _ _ rfl,
      quota_submit p 0 (Or.inl rfl) h 0 0 0 0xFFFFFFFE 0 _ [] fin _ (by omega)
        (fun _ => Nat.le_refl _) rfl rfl]
    simp only [readTail, rd_bind]
    rw [if_pos (show h.direction = dirIn from rfl), rd_pure, Outcome.bind_ok, if_pos (by decide)]
    change (Quota.readExact (16 * 4294967294) ⟨⟨[], fin⟩, 48, K + 48⟩ >>= _) = _
    rw [Quota.readExact, if_neg (by dsimp only; omega)]
    rfl

/-- C50 for packets that are received completely (what is missing: packets announced but not sent,
see `C50_fails`): once a packet is there, no more has been reserved for it than its own length. -/
theorem C50_complete_partial (p : Profile) (bytes rest : Bytes) (fin : ErrKind) (cmd : Cmd)
    (h : (readCommand p : Rd Stream Cmd) ⟨bytes ++ rest, fin⟩ = .ok (cmd, ⟨rest, fin⟩)) :
    ReservesAtMost p bytes.length (bytes ++ rest) fin := by
  obtain ⟨_, h2⟩ := enough_readCommand p _ _ _ h
  obtain ⟨u, _, hu⟩ := h2 0 bytes.length (by simp only [List.length_append]; omega)
  unfold ReservesAtMost
  rw [hu]
  simp

/-- C50 for everything but submits (see `C50_fails`): whatever is sent, including garbage, at most
48 bytes are reserved unless the third and fourth byte are the submit code. -/
theorem C50_other_partial (p : Profile) (bytes : Bytes) (fin : ErrKind)
    (h : (bytes.drop 2).take 2 ≠ [0, 1]) : ReservesAtMost p 48 bytes fin := by
  unfold ReservesAtMost
  simp only [readCommand, rd_bind]
  obtain ⟨hd, hb⟩ := bounded_readU16 ⟨⟨bytes, fin⟩, 0, 48⟩ (by dsimp only; omega)
  cases h1 : (readU16 : Rd Quota UInt16) ⟨⟨bytes, fin⟩, 0, 48⟩ with
  | err e => simp [Bind.bind, Outcome.bind]
  | panic => simp [Bind.bind, Outcome.bind]
  | diverge => exact absurd h1 hd
  | ok r =>
    obtain ⟨v, q⟩ := r
    obtain ⟨hu, hl⟩ := hb v q h1
    dsimp only at hu hl
    rw [Outcome.bind_ok]
    dsimp only
    split
    · simp
    · have hq : bytes = be16 v ++ q.stream.bytes := quota_readU16_inv h1
      rw [rd_bind]
      obtain ⟨hd2, hb2⟩ := bounded_readU16 q (by omega)
      cases h2 : (readU16 : Rd Quota UInt16) q with
      | err e => simp [Bind.bind, Outcome.bind]
      | panic => simp [Bind.bind, Outcome.bind]
      | diverge => exact absurd h2 hd2
      | ok r =>
        obtain ⟨c, q2⟩ := r
        obtain ⟨hu2, hl2⟩ := hb2 c q2 h2
        have hc : c ≠ USBIP_CMD_SUBMIT := by
          rintro rfl
          apply h
          rw [hq, quota_readU16_inv h2, be16_submit]
          rfl
        rw [Outcome.bind_ok]
        dsimp only
        have key : Bounded (if c = OP_REQ_DEVLIST then do
              let status ← readU32
              rdAssert p (status == 0)
              return .reqDevlist status
            else if c = OP_REQ_IMPORT then do
              let status ← readU32
              rdAssert p (status == 0)
              let busid ← readExact 32
              return .reqImport status busid
            else if c = USBIP_CMD_SUBMIT then readSubmit p
            else if c = USBIP_CMD_UNLINK then readUnlink p
            else rdErr .other : Rd Quota Cmd) 44 := by
          refine bounded_ite (fun _ => ?_) fun _ => bounded_ite (fun _ => ?_) fun _ =>
            bounded_ite (fun e => absurd e hc) fun _ => bounded_ite (fun _ => bounded_readUnlink p)
              fun _ => bounded_err _ _
          · refine bounded_bind 4 0 _ (by omega) bounded_readU32 fun _ => ?_
            exact bounded_bind 0 0 _ (by omega) (bounded_assert _ _ _) fun _ => bounded_pure _ _
          · refine bounded_bind 4 32 _ (by decide) bounded_readU32 fun _ => ?_
            refine bounded_bind 0 32 _ (by omega) (bounded_assert _ _ _) fun _ => ?_
            exact bounded_bind 32 0 _ (by omega) (bounded_readExact _ _ (by omega)) fun _ =>
              bounded_pure _ _
        exact (key q2 (by omega)).1

/-- C50 for submits that announce no more than a constant (see `C50_fails`): beyond the 48 bytes
already received, at most the announced payload (OUT direction) and 16 bytes per announced packet
are reserved. -/
theorem C50_announced_partial (p : Profile) (h : Header) (flags len start npkts interval : UInt32)
    (setup rest : Bytes) (fin : ErrKind) (hc : h.command.toNat = 1)
    (hd : p.debugAssertions = true → h.direction.toNat ≤ 1) (hs : setup.length = 8) :
    ReservesAtMost p (48 + (if h.direction.toNat = 1 then 0 else len.toNat)
        + (if hasIso npkts then 16 * npkts.toNat else 0))
      (submitStart h flags len start npkts interval setup ++ rest) fin := by
  unfold ReservesAtMost
  rw [submitStart_eq _ _ _ _ _ _ _ _ hc,
    quota_submit p 0 (Or.inl rfl) h flags len start npkts interval setup rest fin _ (by omega) hd hs hc]
  exact (bounded_readTail _ _ _ _ _ _ _ _ (by dsimp only; omega)).1

/-- C50 with the constant the 32-bit length fields give (see `C50_fails` for why it is no use):
never more than 68 GiB and 15 bytes. -/
theorem C50_ceiling_partial (p : Profile) (bytes : Bytes) (fin : ErrKind) :
    ReservesAtMost p (17 * 2 ^ 32 + 15) bytes fin := by
  have hsub : Bounded (readSubmit p : Rd Quota Cmd) (44 + (2 ^ 32 - 1 + 16 * (2 ^ 32 - 2))) := by
    rw [readSubmit_split]
    refine bounded_bind _ _ _ (Nat.le_refl _) (bounded_readHead p) ?_
    rintro ⟨h, a, len, b, n, c, s⟩ q hq
    have h1 := u32_lt len
    have h2 := u32_lt n
    have h3 : ((if h.direction.toNat = 1 then 0 else len.toNat) +
        if hasIso n then 16 * n.toNat else 0) ≤ 2 ^ 32 - 1 + 16 * (2 ^ 32 - 2) := by
      by_cases hh : hasIso n
      · rw [if_pos hh]
        obtain ⟨k1, k2⟩ := hh
        split <;> omega
      · rw [if_neg hh]
        split <;> omega
    obtain ⟨k1, k2⟩ := bounded_readTail h a len b n c s q (by omega)
    exact ⟨k1, fun a q' hh => ⟨by have := (k2 a q' hh).1; omega, (k2 a q' hh).2⟩⟩
  have key : Bounded (readCommand p : Rd Quota Cmd) (17 * 2 ^ 32 + 15) := by
    unfold readCommand
    refine bounded_bind 2 (17 * 2 ^ 32 + 13) _ (by omega) bounded_readU16 fun _ =>
      bounded_ite (fun _ => bounded_err _ _) fun _ => ?_
    refine bounded_bind 2 (44 + (2 ^ 32 - 1 + 16 * (2 ^ 32 - 2))) _ (by decide) bounded_readU16 fun _ => ?_
    refine bounded_ite (fun _ => ?_) fun _ => bounded_ite (fun _ => ?_) fun _ =>
      bounded_ite (fun _ => hsub) fun _ => bounded_ite (fun _ => ?_) fun _ => bounded_err _ _
    · refine bounded_bind 4 0 _ (by omega) bounded_readU32 fun _ => ?_
      exact bounded_bind 0 0 _ (by omega) (bounded_assert _ _ _) fun _ => bounded_pure _ _
    · refine bounded_bind 4 32 _ (by decide) bounded_readU32 fun _ => ?_
      refine bounded_bind 0 32 _ (by omega) (bounded_assert _ _ _) fun _ => ?_
      exact bounded_bind 32 0 _ (by omega) (bounded_readExact _ _ (by omega)) fun _ =>
        bounded_pure _ _
    · intro q hq
      obtain ⟨k1, k2⟩ := bounded_readUnlink p q (by omega)
      exact ⟨k1, fun a q' hh => ⟨by have := (k2 a q' hh).1; omega, (k2 a q' hh).2⟩⟩
  exact (key _ (by dsimp only; omega)).1

/-- A complete OUT submit of 51 bytes needs 51 bytes, and not less. -/
example : (readCommand dev : Rd Stream Cmd) ⟨wireCmd cmdOut ++ [9], .unexpectedEof⟩ =
      .ok (cmdOut, ⟨[9], .unexpectedEof⟩) ∧
    (wireCmd cmdOut).length = 51 ∧ ¬ ReservesAtMost dev 50 (wireCmd cmdOut) .unexpectedEof := by
  refine ⟨rfl, by decide, fun h => h ?_⟩
  rfl

/-- An unlink and a packet with an unknown code are not submits. -/
example : ((wireCmd cmdUnlink).drop 2).take 2 ≠ [0, 1] ∧ ([1, 17, 7, 7] : Bytes).drop 2 ≠ [0, 1] := by
  decide

end Usbip
