import Verif.Spec.Panics
import Verif.Lemmas.Hosted
import Verif.Lemmas.Quota
import Verif.Props.Device
import Verif.Props.Codec
/-! Helper lemmas: what makes a connection's task crash. -/

namespace Usbip
open Spec

/-! ### Reading -/

theorem rd_bind_panic {α β} (x : Rd Stream α) (f : α → Rd Stream β) (s : Stream) :
    (x >>= f) s = .panic ↔ x s = .panic ∨ ∃ a s', x s = .ok (a, s') ∧ f a s' = .panic := by
  rw [rd_bind]
  cases h : x s with
  | ok r =>
    obtain ⟨a, s'⟩ := r
    show f a s' = .panic ↔ _
    constructor
    · intro h; exact .inr ⟨a, s', rfl, h⟩
    · rintro (h | ⟨b, t, hb, h⟩)
      · simp at h
      · simp only [Outcome.ok.injEq, Prod.mk.injEq] at hb
        obtain ⟨rfl, rfl⟩ := hb
        exact h
  | err e => simp
  | panic => simp
  | diverge => simp

def Calm {α} (x : Rd Stream α) : Prop := ∀ s, x s ≠ .panic

theorem calm_readExact (n : Nat) : Calm (readExact n) := by
  intro s
  rw [stream_readExact]
  unfold Stream.readExact
  split <;> simp

theorem calm_readU16 : Calm readU16 := by
  intro s h
  rw [readU16, rd_bind_panic] at h
  rcases h with h | ⟨bs, s', h1, h2⟩
  · exact calm_readExact 2 s h
  · have hl := (stream_readExact_inv h1).1
    match bs, hl with
    | [a, b], _ => simp [rd_pure] at h2

theorem calm_readU32 : Calm readU32 := by
  intro s h
  rw [readU32, rd_bind_panic] at h
  rcases h with h | ⟨bs, s', h1, h2⟩
  · exact calm_readExact 4 s h
  · have hl := (stream_readExact_inv h1).1
    match bs, hl with
    | [a, b, c, d], _ => simp [rd_pure] at h2

theorem calm_pure {α} (a : α) : Calm (pure a) := by intro s h; simp [rd_pure] at h
theorem calm_err {α} (e : ErrKind) : Calm (rdErr e : Rd Stream α) := by intro s h; simp [rdErr] at h

theorem calm_bind {α β} {x : Rd Stream α} {f : α → Rd Stream β} (hx : Calm x) (hf : ∀ a, Calm (f a)) :
    Calm (x >>= f) := by
  intro s h
  rcases (rd_bind_panic x f s).mp h with h | ⟨a, s', _, h⟩
  · exact hx s h
  · exact hf a s' h

theorem calm_ite {α} {c : Prop} [Decidable c] {x y : Rd Stream α} (hx : Calm x) (hy : Calm y) :
    Calm (if c then x else y) := by
  split <;> assumption

theorem u32_panic {β} (f : UInt32 → Rd Stream β) (s : Stream) :
    (readU32 >>= f) s = .panic ↔ ∃ a rest, s.bytes = be32 a ++ rest ∧ f a ⟨rest, s.fin⟩ = .panic := by
  rw [rd_bind_panic]
  constructor
  · rintro (h | ⟨a, s', h1, h2⟩)
    · exact absurd h (calm_readU32 s)
    · have := stream_readU32_inv h1
      exact ⟨a, s'.bytes, by rw [this], by rw [this]; exact h2⟩
  · rintro ⟨a, rest, h1, h2⟩
    refine .inr ⟨a, ⟨rest, s.fin⟩, ?_, h2⟩
    have : s = ⟨be32 a ++ rest, s.fin⟩ := by rw [← h1]
    rw [this, stream_readU32]

theorem u16_panic {β} (f : UInt16 → Rd Stream β) (s : Stream) :
    (readU16 >>= f) s = .panic ↔ ∃ a rest, s.bytes = be16 a ++ rest ∧ f a ⟨rest, s.fin⟩ = .panic := by
  rw [rd_bind_panic]
  constructor
  · rintro (h | ⟨a, s', h1, h2⟩)
    · exact absurd h (calm_readU16 s)
    · have := stream_readU16_inv h1
      exact ⟨a, s'.bytes, by rw [this], by rw [this]; exact h2⟩
  · rintro ⟨a, rest, h1, h2⟩
    refine .inr ⟨a, ⟨rest, s.fin⟩, ?_, h2⟩
    have : s = ⟨be16 a ++ rest, s.fin⟩ := by rw [← h1]
    rw [this, stream_readU16]

theorem assert_panic {β} (p : Profile) (c : Bool) (f : Unit → Rd Stream β) (s : Stream) (hf : Calm (f ())) :
    (rdAssert p c >>= f) s = .panic ↔ p.debugAssertions = true ∧ c = false := by
  rw [rd_bind, rdAssert_apply]
  by_cases hp : p.debugAssertions = true
  · cases c
    · simp [debugAssert, hp]
    · simp only [debugAssert, hp, Bool.true_and, Bool.not_true]
      have := hf s
      simpa using this
  · have := hf s
    simpa [debugAssert, hp] using this

theorem dir_bad (d : UInt32) : (d &&& 1 == d) = false ↔ be32 d ≠ [0, 0, 0, 0] ∧ be32 d ≠ [0, 0, 0, 1] := by
  have h0 : be32 0 = [0, 0, 0, 0] := by decide
  have h1 : be32 1 = [0, 0, 0, 1] := by decide
  have inj : ∀ a b : UInt32, be32 a = be32 b → a = b := by
    intro a b h
    rw [← ofBe32_be32 a, ← ofBe32_be32 b]
    simp only [be32, List.cons.injEq, and_true] at h
    obtain ⟨a1, a2, a3, a4⟩ := h
    rw [a1, a2, a3, a4]
  have key : (d &&& 1 == d) = true ↔ d = 0 ∨ d = 1 := by
    rw [beq_iff_eq]
    constructor
    · intro h
      have h := congrArg UInt32.toNat h
      rw [UInt32.toNat_and] at h
      have : d.toNat ≤ 1 := by
        rw [← h]; exact Nat.and_le_right
      rcases Nat.le_one_iff_eq_zero_or_eq_one.mp this with h | h
      · left; exact UInt32.toNat_inj.mp h
      · right; exact UInt32.toNat_inj.mp h
    · rintro (rfl | rfl) <;> decide
  rw [← Bool.not_eq_true, key]
  constructor
  · intro h
    exact ⟨fun e => h (.inl (inj _ _ (e.trans h0.symm))), fun e => h (.inr (inj _ _ (e.trans h1.symm)))⟩
  · rintro ⟨a, b⟩ (rfl | rfl)
    · exact a h0
    · exact b h1

theorem status_bad (d : UInt32) : (d == 0) = false ↔ be32 d ≠ [0, 0, 0, 0] := by
  have h0 : be32 0 = [0, 0, 0, 0] := by decide
  rw [← Bool.not_eq_true, beq_iff_eq]
  constructor
  · intro h e
    apply h
    rw [← ofBe32_be32 d]
    rw [be32] at e
    simp only [List.cons.injEq, and_true] at e
    obtain ⟨a1, a2, a3, a4⟩ := e
    rw [a1, a2, a3, a4]; decide
  · rintro h rfl
    exact h h0

theorem be32_of_four (l : Bytes) (h : l.length = 4) : ∃ x, l = be32 x := by
  match l, h with
  | [a, b, c, d], _ => exact ⟨ofBe32 a b c d, (be32_ofBe32 a b c d).symm⟩

theorem readHeader_panic {β} (p : Profile) (c : UInt16) (f : Header → Rd Stream β) (hf : ∀ h, Calm (f h)) (s : Stream) :
    (readHeader p c >>= f) s = .panic ↔ p.debugAssertions = true ∧
      ∃ ids dir rest : Bytes, s.bytes = ids ++ dir ++ rest ∧ ids.length = 8 ∧ dir.length = 4 ∧
        dir ≠ [0, 0, 0, 0] ∧ dir ≠ [0, 0, 0, 1] := by
  have hcalm : ∀ (a b d : UInt32), Calm (do
      let ep ← readU32
      f { command := c.toUInt32, seqnum := a, devid := b, direction := d, ep } : Rd Stream β) :=
    fun a b d => calm_bind calm_readU32 (fun e => hf _)
  have hsplit : (readHeader p c >>= f) s = (do
      let a ← readU32
      let b ← readU32
      let d ← readU32
      rdAssert p (d &&& 1 == d)
      let ep ← readU32
      f { command := c.toUInt32, seqnum := a, devid := b, direction := d, ep } : Rd Stream β) s := by
    unfold readHeader
    simp only [rd_bind_assoc, rd_pure_bind]
  rw [hsplit, u32_panic]
  constructor
  · rintro ⟨a, r1, e1, h⟩
    rw [u32_panic] at h
    obtain ⟨b, r2, e2, h⟩ := h
    rw [u32_panic] at h
    obtain ⟨d, r3, e3, h⟩ := h
    rw [assert_panic p _ _ _ (hcalm a b d), dir_bad] at h
    simp only at e2 e3
    refine ⟨h.1, be32 a ++ be32 b, be32 d, r3, ?_, rfl, rfl, h.2⟩
    rw [e1, e2, e3]; simp
  · rintro ⟨hp, ids, dir, rest, e, hl, hd, hne⟩
    obtain ⟨x, hx⟩ := be32_of_four (ids.take 4) (by rw [List.length_take]; omega)
    obtain ⟨y, hy⟩ := be32_of_four (ids.drop 4) (by rw [List.length_drop]; omega)
    obtain ⟨z, rfl⟩ := be32_of_four dir hd
    have hids : ids = be32 x ++ be32 y := by rw [← hx, ← hy, List.take_append_drop]
    refine ⟨x, be32 y ++ be32 z ++ rest, by rw [e, hids]; simp, ?_⟩
    rw [u32_panic]
    refine ⟨y, be32 z ++ rest, by simp, ?_⟩
    rw [u32_panic]
    refine ⟨z, rest, rfl, ?_⟩
    rw [assert_panic p _ _ _ (hcalm x y z), dir_bad]
    exact ⟨hp, hne⟩

theorem readSubmit_panic (p : Profile) (s : Stream) :
    readSubmit p s = .panic ↔ p.debugAssertions = true ∧
      ∃ ids dir rest : Bytes, s.bytes = ids ++ dir ++ rest ∧ ids.length = 8 ∧ dir.length = 4 ∧
        dir ≠ [0, 0, 0, 0] ∧ dir ≠ [0, 0, 0, 1] := by
  unfold readSubmit
  refine readHeader_panic p _ _ ?_ s
  intro h
  repeat' first
    | exact calm_readU32 | exact calm_readExact _ | exact calm_pure _
    | refine calm_bind ?_ ?_ | refine calm_ite ?_ ?_ | intro _

theorem readUnlink_panic (p : Profile) (s : Stream) :
    readUnlink p s = .panic ↔ p.debugAssertions = true ∧
      ∃ ids dir rest : Bytes, s.bytes = ids ++ dir ++ rest ∧ ids.length = 8 ∧ dir.length = 4 ∧
        dir ≠ [0, 0, 0, 0] ∧ dir ≠ [0, 0, 0, 1] := by
  unfold readUnlink
  refine readHeader_panic p _ _ ?_ s
  intro h
  repeat' first
    | exact calm_readU32 | exact calm_readExact _ | exact calm_pure _
    | refine calm_bind ?_ ?_ | intro _

theorem status_panic {β} (p : Profile) (f : UInt32 → Rd Stream β) (hf : ∀ a, Calm (f a)) (s : Stream) :
    (do let st ← readU32; rdAssert p (st == 0); f st : Rd Stream β) s = .panic ↔
      p.debugAssertions = true ∧ ∃ st rest : Bytes, s.bytes = st ++ rest ∧ st.length = 4 ∧ st ≠ [0, 0, 0, 0] := by
  rw [u32_panic]
  constructor
  · rintro ⟨a, r, e, h⟩
    rw [assert_panic p _ _ _ (hf a), status_bad] at h
    exact ⟨h.1, be32 a, r, e, rfl, h.2⟩
  · rintro ⟨hp, st, rest, e, hl, hne⟩
    obtain ⟨x, rfl⟩ := be32_of_four st hl
    exact ⟨x, rest, e, by rw [assert_panic p _ _ _ (hf x), status_bad]; exact ⟨hp, hne⟩⟩

theorem readCommand_panic (p : Profile) (s : Stream) :
    readCommand p s = .panic ↔ p.debugAssertions = true ∧ (BadStatus s.bytes ∨ BadDirection s.bytes) := by
  have hv : ∀ v : UInt16, (v = 0 ∨ v = USBIP_VERSION) ↔ be16 v ∈ [[0, 0], [0x01, (0x11 : UInt8)]] := by
    intro v
    rw [← be16_0, ← be16_version]
    simp only [List.mem_cons, List.not_mem_nil, or_false]
    constructor
    · rintro (rfl | rfl) <;> simp
    · rintro (h | h)
      · exact .inl (be16_inj h)
      · exact .inr (be16_inj h)
  have two : ∀ l : Bytes, l ∈ [[0, 0], [0x01, (0x11 : UInt8)]] → ∃ v : UInt16, l = be16 v := by
    intro l h
    simp only [List.mem_cons, List.not_mem_nil, or_false] at h
    rcases h with rfl | rfl
    · exact ⟨0, be16_0.symm⟩
    · exact ⟨USBIP_VERSION, be16_version.symm⟩
  unfold readCommand
  rw [u16_panic]
  constructor
  · rintro ⟨v, r, e, h⟩
    by_cases hvv : v ≠ 0 ∧ v ≠ USBIP_VERSION
    · rw [if_pos hvv] at h; exact absurd h (calm_err _ _)
    · rw [if_neg hvv] at h
      have hvm := (hv v).mp (by
        by_cases h0 : v = 0
        · exact .inl h0
        · by_cases h1 : v = USBIP_VERSION
          · exact .inr h1
          · exact absurd ⟨h0, h1⟩ hvv)
      rw [u16_panic] at h
      obtain ⟨c, r', e', h⟩ := h
      simp only at e'
      split at h
      · rename_i hc
        rw [status_panic p _ (fun a => calm_pure _)] at h
        obtain ⟨hp, st, rest, e2, hl, hne⟩ := h
        simp only at e2
        exact ⟨hp, .inl ⟨be16 v, be16 c, st, rest, by rw [e, e', e2]; simp, hvm, by rw [hc, be16_devlist]; simp, hl, hne⟩⟩
      split at h
      · rename_i hc
        rw [status_panic p _ (fun a => calm_bind (calm_readExact _) (fun _ => calm_pure _))] at h
        obtain ⟨hp, st, rest, e2, hl, hne⟩ := h
        simp only at e2
        exact ⟨hp, .inl ⟨be16 v, be16 c, st, rest, by rw [e, e', e2]; simp, hvm, by rw [hc, be16_import]; simp, hl, hne⟩⟩
      split at h
      · rename_i hc
        rw [readSubmit_panic] at h
        obtain ⟨hp, ids, dir, rest, e2, hl, hne⟩ := h
        simp only at e2
        exact ⟨hp, .inr ⟨be16 v, be16 c, ids, dir, rest, by rw [e, e', e2]; simp, hvm, by rw [hc, be16_submit]; simp, hl, hne⟩⟩
      split at h
      · rename_i hc
        rw [readUnlink_panic] at h
        obtain ⟨hp, ids, dir, rest, e2, hl, hne⟩ := h
        simp only at e2
        exact ⟨hp, .inr ⟨be16 v, be16 c, ids, dir, rest, by rw [e, e', e2]; simp, hvm, by rw [hc, be16_unlink]; simp, hl, hne⟩⟩
      · exact absurd h (calm_err _ _)
  · rintro ⟨hp, ⟨v, c, st, rest, e, hvm, hc, hl, hne⟩ | ⟨v, c, ids, dir, rest, e, hvm, hc, hl, hne⟩⟩
    · obtain ⟨v, rfl⟩ := two v hvm
      have hvv := (hv v).mpr hvm
      refine ⟨v, c ++ st ++ rest, by rw [e]; simp, ?_⟩
      rw [if_neg (by rintro ⟨a, b⟩; exact hvv.elim a b), u16_panic]
      simp only [List.mem_cons, List.not_mem_nil, or_false] at hc
      rcases hc with rfl | rfl
      · refine ⟨OP_REQ_DEVLIST, st ++ rest, by rw [be16_devlist]; simp, ?_⟩
        rw [if_pos rfl, status_panic p _ (fun a => calm_pure _)]
        exact ⟨hp, st, rest, rfl, hl, hne⟩
      · refine ⟨OP_REQ_IMPORT, st ++ rest, by rw [be16_import]; simp, ?_⟩
        rw [if_neg (by decide), if_pos rfl,
          status_panic p _ (fun a => calm_bind (calm_readExact _) (fun _ => calm_pure _))]
        exact ⟨hp, st, rest, rfl, hl, hne⟩
    · obtain ⟨v, rfl⟩ := two v hvm
      have hvv := (hv v).mpr hvm
      refine ⟨v, c ++ ids ++ dir ++ rest, by rw [e]; simp, ?_⟩
      rw [if_neg (by rintro ⟨a, b⟩; exact hvv.elim a b), u16_panic]
      simp only [List.mem_cons, List.not_mem_nil, or_false] at hc
      rcases hc with rfl | rfl
      · refine ⟨USBIP_CMD_SUBMIT, ids ++ dir ++ rest, by rw [be16_submit]; simp, ?_⟩
        rw [if_neg (by decide), if_neg (by decide), if_pos rfl, readSubmit_panic]
        exact ⟨hp, ids, dir, rest, rfl, hl, hne⟩
      · refine ⟨USBIP_CMD_UNLINK, ids ++ dir ++ rest, by rw [be16_unlink]; simp, ?_⟩
        rw [if_neg (by decide), if_neg (by decide), if_neg (by decide), if_pos rfl, readUnlink_panic]
        exact ⟨hp, ids, dir, rest, rfl, hl, hne⟩

end Usbip

namespace Usbip
open Spec

/-! ### Reading comes to an end -/

def Ends {α} (x : Rd Stream α) : Prop := ∀ s, x s ≠ .diverge

theorem ends_readExact (n : Nat) : Ends (readExact n) := by
  intro s
  rw [stream_readExact]
  unfold Stream.readExact
  split <;> simp

theorem ends_pure {α} (a : α) : Ends (pure a) := by intro s h; simp [rd_pure] at h
theorem ends_err {α} (e : ErrKind) : Ends (rdErr e : Rd Stream α) := by intro s h; simp [rdErr] at h
theorem ends_panic {α} : Ends (fun _ => .panic : Rd Stream α) := by intro s h; simp at h

theorem ends_assert (p : Profile) (c : Bool) : Ends (rdAssert p c) := by
  intro s h
  rw [rdAssert_apply] at h
  unfold debugAssert at h
  split at h
  · simp at h
  · simp at h

theorem ends_bind {α β} {x : Rd Stream α} {f : α → Rd Stream β} (hx : Ends x) (hf : ∀ a, Ends (f a)) :
    Ends (x >>= f) := by
  intro s h
  rw [rd_bind] at h
  cases hr : x s with
  | ok r => rw [hr] at h; exact hf _ _ h
  | err e => rw [hr] at h; simp at h
  | panic => rw [hr] at h; simp at h
  | diverge => exact hx s hr

theorem ends_ite {α} {c : Prop} [Decidable c] {x y : Rd Stream α} (hx : Ends x) (hy : Ends y) :
    Ends (if c then x else y) := by
  split <;> assumption

theorem ends_readU16 : Ends readU16 := by
  refine ends_bind (ends_readExact 2) ?_
  intro bs
  split
  · exact ends_pure _
  · exact ends_panic

theorem ends_readU32 : Ends readU32 := by
  refine ends_bind (ends_readExact 4) ?_
  intro bs
  split
  · exact ends_pure _
  · exact ends_panic

theorem readCommand_ends (p : Profile) (s : Stream) : readCommand p s ≠ .diverge := by
  have : Ends (readCommand p : Rd Stream Cmd) := by
    unfold readCommand readSubmit readUnlink readHeader
    repeat' first
      | exact ends_readU16 | exact ends_readU32 | exact ends_readExact _
      | exact ends_assert _ _ | exact ends_pure _ | exact ends_err _
      | refine ends_bind ?_ ?_ | refine ends_ite ?_ ?_ | intro _
  exact this s

/-! ### Executing -/

theorem device_writes (p : Profile) (d : Device) :
    (∃ bs, d.toBytes p = .ok bs) ↔ ¬ (p.debugAssertions = true ∧ Unwritable d) := by
  constructor
  · rintro ⟨bs, h⟩ ⟨hp, hu⟩
    rw [Device.toBytes, Outcome.bind_eq_ok] at h
    obtain ⟨_, h1, h⟩ := h
    rw [Outcome.bind_eq_ok] at h
    obtain ⟨_, h2, _⟩ := h
    have h1 := debugAssert_ok h1 hp
    have h2 := debugAssert_ok h2 hp
    simp only [decide_eq_true_eq] at h1 h2
    rcases hu with hu | hu <;> omega
  · intro h
    rcases (C10_total p d).2 with h' | h'
    · exact absurd ((C10_total p d).1.mp h') h
    · exact h'

theorem devlist_writes (p : Profile) (ds : List Device) :
    (∃ bs, (opRepDevlist ds).toBytes p = .ok bs) ↔ ¬ (p.debugAssertions = true ∧ ∃ d ∈ ds, Unwritable d) := by
  constructor
  · rintro ⟨bs, h⟩ ⟨hp, d, hd, hu⟩
    simp only [opRepDevlist, Resp.toBytes, Outcome.bind_eq_ok] at h
    obtain ⟨b, h, h'⟩ := h
    clear h' bs
    induction ds generalizing b with
    | nil => simp at hd
    | cons a ds ih =>
      rw [devlistBytes, Outcome.bind_eq_ok] at h
      obtain ⟨b1, h1, h⟩ := h
      rw [Outcome.bind_eq_ok] at h
      obtain ⟨b2, h2, _⟩ := h
      rcases List.mem_cons.mp hd with rfl | hd
      · rw [Device.toBytesWithInterfaces, Outcome.bind_eq_ok] at h1
        obtain ⟨b3, h3, _⟩ := h1
        exact (device_writes p d).mp ⟨b3, h3⟩ ⟨hp, hu⟩
      · exact ih hd b2 h2
  · intro h
    apply C09_devlist_serialises
    intro hp d hd
    have : ¬ Unwritable d := fun hu => h ⟨hp, d, hd, hu⟩
    unfold Unwritable at this
    omega

theorem success_writes (p : Profile) (h : Header) (buf : Bytes) :
    (∃ bs, (usbipRetSubmitSuccess { h with command := 3 } 0 0 buf []).toBytes p = .ok bs) ↔
      ¬ (p.debugAssertions = true ∧ h.direction.toNat ≠ 1 ∧ buf.length % 4294967296 ≠ 0) := by
  simp only [usbipRetSubmitSuccess, Resp.toBytes, debugAssert_true p (c := (3 : UInt32) == USBIP_RET_SUBMIT.toUInt32) (by decide),
    Outcome.bind_ok]
  by_cases hd : h.direction.toNat = 1
  · have : h.direction = dirIn := (dirIn_iff _).mpr hd
    simp [this, debugAssert, dirIn]
  · have hne : ¬ h.direction = dirIn := fun e => hd ((dirIn_iff _).mp e)
    have hl : (asU32 buf.length == 0) = decide (buf.length % 4294967296 = 0) := by
      rw [Bool.eq_iff_iff, beq_iff_eq, decide_eq_true_eq, ← UInt32.toNat_inj]
      simp [asU32]
    simp only [if_neg hne, hl]
    by_cases hz : buf.length % 4294967296 = 0
    · simp [hz, debugAssert]
    · by_cases hp : p.debugAssertions = true
      · simp [hz, debugAssert, hp, hd]
      · simp [debugAssert, hp]

theorem serve_crash {σ} (env : Env σ) (p : Profile) (s : Shared σ) (cur : Option Bytes) (cmd : Cmd)
    (hcur : ∀ id, cur = some id → ∃ d, amGet id s.used = some d)
    (hn : (s.available.map Device.busId).Nodup) :
    (∃ r b, (s.serve env p cur cmd).1 = .ok r ∧ r.toBytes p = .ok b) ↔ ¬ Crashing env p s cur cmd := by
  cases cmd with
  | reqDevlist st =>
    have := devlist_writes p s.available
    simp only [Shared.serve, Crashing]
    rw [← this]
    constructor
    · rintro ⟨r, b, h1, h2⟩
      rw [Outcome.ok.injEq] at h1
      subst h1
      exact ⟨b, h2⟩
    · rintro ⟨b, h⟩; exact ⟨_, b, rfl, h⟩
  | reqImport st busid =>
    simp only [Shared.serve, Shared.import, Crashing]
    cases ht : takeFirst (busidCompare busid) s.available with
    | none =>
      rw [takeFirst_none] at ht
      simp only
      constructor
      · rintro _ ⟨_, d, hd, he, _⟩
        exact ht d hd he
      · intro _
        exact ⟨_, _, rfl, rfl⟩
    | some r =>
      obtain ⟨d, rest⟩ := r
      simp only
      obtain ⟨l1, l2, hl, _, he, _⟩ := takeFirst_some.mp ht
      have hd : d ∈ s.available := by rw [hl]; simp
      have hw := device_writes p d
      constructor
      · rintro ⟨r, b, h1, h2⟩ ⟨hp, d', hd', he', hu⟩
        have : d' = d := nodup_map_inj Device.busId _ hn hd' hd (he'.trans he.symm)
        subst this
        rw [Outcome.ok.injEq] at h1
        subst h1
        simp only [opRepImportSuccess, Resp.toBytes, Outcome.bind_eq_ok] at h2
        obtain ⟨bs, h3, _⟩ := h2
        exact hw.mp ⟨bs, h3⟩ ⟨hp, hu⟩
      · intro h
        obtain ⟨bs, hbs⟩ := hw.mpr (fun ⟨hp, hu⟩ => h ⟨hp, d, hd, he, hu⟩)
        exact ⟨_, _, rfl, by simp only [opRepImportSuccess, Resp.toBytes]; rw [hbs]; rfl⟩
  | submit header a len b c e setup data iso =>
    simp only [Shared.serve, Crashing]
    cases cur with
    | none => simp
    | some id =>
      obtain ⟨d, hd⟩ := hcur id rfl
      simp only [Option.bind_some, hd]
      have hfail : ∃ bs, (usbipRetSubmitFail { header with command := 3 }).toBytes p = .ok bs :=
        let ⟨bs, h, _⟩ := (C08_fail_and_unlink p header []).1; ⟨bs, h⟩
      cases hf : endpointAt d (Job.address ⟨d, header, len, setup, data⟩) with
      | none =>
        rw [submit_missing env p s ⟨d, header, len, setup, data⟩ hf]
        constructor
        · rintro _ (h | ⟨id', d', h1, h2, ep, owner, h3, _⟩)
          · simp at h
          · rw [Option.some.injEq] at h1; subst h1
            rw [hd, Option.some.injEq] at h2; subst h2
            rw [hf] at h3; simp at h3
        · intro _
          obtain ⟨bs, h⟩ := hfail
          exact ⟨_, bs, rfl, h⟩
      | some r =>
        obtain ⟨ep, owner⟩ := r
        rw [submit_eq env p s ⟨d, header, len, setup, data⟩ ep owner hf]
        simp only
        have hp20 := C20_panics env p d ep owner len (setupAt setup) data s.world
        have ht20 := C20_terminates env p d ep owner len (setupAt setup) data s.world
        have hcr : ((some id : Option Bytes) = none ∨ ∃ id' d', some id = some id' ∧ amGet id' s.used = some d' ∧
            Job.Crash env p s.world ⟨d', header, len, setup, data⟩) ↔
            ((d.handleUrb env p ep owner len (setupAt setup) data s.world).1 = .panic ∨
              (p.debugAssertions = true ∧ header.direction.toNat ≠ 1 ∧ ∃ buf,
                (d.handleUrb env p ep owner len (setupAt setup) data s.world).1 = .ok buf ∧
                buf.length % 4294967296 ≠ 0)) := by
          rw [hp20]
          constructor
          · rintro (h | ⟨id', d', h1, h2, ep', owner', h3, h4⟩)
            · simp at h
            · rw [Option.some.injEq] at h1; subst h1
              rw [hd, Option.some.injEq] at h2; subst h2
              rw [hf, Option.some.injEq, Prod.mk.injEq] at h3
              obtain ⟨rfl, rfl⟩ := h3
              refine h4.imp (fun h => h) (fun ⟨a1, a2, buf, a3, a4⟩ => ⟨a1, a2, buf, ?_, a4⟩)
              exact (said_data_iff ..).mp a3
          · intro h
            refine .inr ⟨id, d, rfl, hd, ep, owner, hf, h.imp (fun h => h) (fun ⟨a1, a2, buf, a3, a4⟩ => ⟨a1, a2, buf, ?_, a4⟩)⟩
            exact (said_data_iff ..).mpr a3
        rw [hcr]
        cases hu : (d.handleUrb env p ep owner len (setupAt setup) data s.world).1 with
        | ok buf =>
          have hw := success_writes p header buf
          simp only [Outcome.ok.injEq, reduceCtorEq, false_or]
          constructor
          · rintro ⟨r, b, rfl, h⟩ ⟨hp, hd, buf', rfl, hl⟩
            exact hw.mp ⟨b, h⟩ ⟨hp, hd, hl⟩
          · intro h
            obtain ⟨bs, hbs⟩ := hw.mpr (fun ⟨hp, hd, hl⟩ => h ⟨hp, hd, buf, rfl, hl⟩)
            exact ⟨_, bs, rfl, hbs⟩
        | err k =>
          obtain ⟨bs, h⟩ := hfail
          simp only [reduceCtorEq, false_or]
          exact ⟨fun _ => by rintro ⟨_, _, _, h, _⟩; exact h, fun _ => ⟨_, bs, rfl, h⟩⟩
        | panic => simp
        | diverge => exact absurd hu ht20
  | unlink header n =>
    simp only [Shared.serve, Crashing, not_false_eq_true, iff_true]
    obtain ⟨bs, h, _⟩ := (C08_fail_and_unlink p header []).2.1
    exact ⟨_, bs, rfl, h⟩

end Usbip
