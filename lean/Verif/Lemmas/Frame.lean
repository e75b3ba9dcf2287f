import Verif.Lemmas.Read
/-! Compositional facts about readers: framing (C05) and independence of segmentation (C03). -/

namespace Usbip
open Spec

/-- A reader that, whenever it succeeds, used a definite prefix, does the same on any input
starting with that prefix, and fails with the stream's end condition on any strict prefix of it. -/
def Framed {α} (x : Rd Stream α) : Prop :=
  ∀ s a s', x s = .ok (a, s') → ∃ used, s = ⟨used ++ s'.bytes, s'.fin⟩ ∧
    (∀ rest fin, x ⟨used ++ rest, fin⟩ = .ok (a, ⟨rest, fin⟩)) ∧
    (∀ pre post fin, used = pre ++ post → post ≠ [] → x ⟨pre, fin⟩ = .err fin)

theorem framed_pure {α} (a : α) : Framed (pure a) := by
  intro s b s' h
  simp only [rd_pure, Outcome.ok.injEq, Prod.mk.injEq] at h
  obtain ⟨rfl, rfl⟩ := h
  refine ⟨[], by simp, by simp, ?_⟩
  intro pre post fin h1 h2
  have := (List.append_eq_nil_iff.mp h1.symm).2
  exact absurd this h2

theorem framed_err {α} (e : ErrKind) : Framed (rdErr e : Rd Stream α) := by
  intro s a s' h; simp at h

theorem framed_panic {α} : Framed (fun _ => .panic : Rd Stream α) := by
  intro s a s' h; simp at h

theorem framed_assert (p : Profile) (c : Bool) : Framed (rdAssert p c) := by
  intro s a s' h
  obtain ⟨hc, rfl⟩ := assert_inv h
  refine ⟨[], by simp, fun rest fin => by simpa using assert_ok_apply p _ hc, ?_⟩
  intro pre post fin h1 h2
  exact absurd (List.append_eq_nil_iff.mp h1.symm).2 h2

theorem framed_readExact (n : Nat) : Framed (readExact n) := by
  intro s a s' h
  obtain ⟨hl, hs⟩ := stream_readExact_inv h
  refine ⟨a, hs, fun rest fin => stream_readExact_append a rest fin n hl, ?_⟩
  intro pre post fin h1 h2
  simp only [stream_readExact, Stream.readExact]
  rw [if_neg]
  have := List.length_pos_iff.mpr h2
  rw [← hl, h1, List.length_append]
  omega

theorem framed_bind {α β} (x : Rd Stream α) (f : α → Rd Stream β) (hx : Framed x)
    (hf : ∀ a, Framed (f a)) : Framed (x >>= f) := by
  intro s b s' h
  rw [rd_bind, Outcome.bind_eq_ok] at h
  obtain ⟨⟨a, s1⟩, h1, h2⟩ := h
  obtain ⟨u1, e1, g1, t1⟩ := hx _ _ _ h1
  obtain ⟨u2, e2, g2, t2⟩ := hf a _ _ _ h2
  refine ⟨u1 ++ u2, ?_, ?_, ?_⟩
  · rw [e1]
    dsimp only at e2
    rw [e2]; simp
  · intro rest fin
    rw [rd_bind, List.append_assoc, g1]
    exact g2 rest fin
  · intro pre post fin hp hne
    rw [rd_bind]
    rw [List.append_eq_append_iff] at hp
    rcases hp with ⟨m, hm1, hm2⟩ | ⟨m, hm1, hm2⟩
    · subst hm1
      rw [g1]
      exact t2 m post fin hm2 hne
    · by_cases hmn : m = []
      · subst hmn
        simp only [List.append_nil, List.nil_append] at hm1 hm2
        subst hm1 hm2
        have := g1 [] fin
        rw [List.append_nil] at this
        rw [this]
        exact t2 [] post fin rfl hne
      · rw [t1 pre m fin hm1 hmn]; rfl

theorem framed_ite {α} {c : Prop} [Decidable c] {x y : Rd Stream α} (hx : Framed x)
    (hy : Framed y) : Framed (if c then x else y) := by
  split <;> assumption

theorem framed_readU16 : Framed readU16 := by
  refine framed_bind _ _ (framed_readExact 2) ?_
  intro bs
  split
  · exact framed_pure _
  · exact framed_panic

theorem framed_readU32 : Framed readU32 := by
  refine framed_bind _ _ (framed_readExact 4) ?_
  intro bs
  split
  · exact framed_pure _
  · exact framed_panic

theorem framed_readCommand (p : Profile) : Framed (readCommand p) := by
  unfold readCommand readSubmit readUnlink readHeader
  repeat' first
    | exact framed_readU16 | exact framed_readU32 | exact framed_readExact _
    | exact framed_assert _ _ | exact framed_pure _ | exact framed_err _
    | refine framed_bind _ _ ?_ ?_ | refine framed_ite ?_ ?_ | intro _

/-! ## Segmentation -/

/-- The byte stream a segmented socket delivers. -/
def Segs.whole (s : Segs) : Stream := ⟨s.segs.flatten, s.fin⟩

/-- The reader does on segments what it does on the whole stream. -/
def Sim {α} (x : Rd Segs α) (y : Rd Stream α) : Prop :=
  ∀ s, (x s >>= fun r => .ok (r.1, r.2.whole)) = y s.whole

theorem sim_pure {α} (a : α) : Sim (pure a) (pure a) := fun _ => rfl
theorem sim_err {α} (e : ErrKind) : Sim (rdErr e : Rd Segs α) (rdErr e) := fun _ => rfl
theorem sim_panic {α} : Sim (fun _ => .panic : Rd Segs α) (fun _ => .panic) := fun _ => rfl
theorem sim_assert (p : Profile) (c : Bool) : Sim (rdAssert p c) (rdAssert p c) := by
  intro s
  rw [rdAssert_apply, rdAssert_apply]
  cases debugAssert p c <;> rfl

theorem sim_bind {α β} {x : Rd Segs α} {y : Rd Stream α} {f : α → Rd Segs β}
    {g : α → Rd Stream β} (h : Sim x y) (hf : ∀ a, Sim (f a) (g a)) : Sim (x >>= f) (y >>= g) := by
  intro s
  rw [rd_bind, rd_bind, ← h s]
  cases hx : x s with
  | ok r => exact hf r.1 r.2
  | err e => rfl
  | panic => rfl
  | diverge => rfl

theorem sim_ite {α} {c : Prop} [Decidable c] {x x' : Rd Segs α} {y y' : Rd Stream α}
    (h : Sim x y) (h' : Sim x' y') : Sim (if c then x else x') (if c then y else y') := by
  split <;> assumption

theorem readLoop_whole (fin : ErrKind) (segs : List Bytes) (n : Nat) (acc : Bytes) :
    (Segs.readLoop fin n segs acc >>= fun r => .ok (r.1, r.2.whole)) =
      (Stream.readExact n ⟨segs.flatten, fin⟩ >>= fun r => .ok (acc ++ r.1, r.2)) := by
  induction segs generalizing n acc with
  | nil =>
    cases n with
    | zero => simp [Segs.readLoop, Stream.readExact, Segs.whole]
    | succ n => simp [Segs.readLoop, Stream.readExact]
  | cons seg segs ih =>
    cases n with
    | zero => simp [Segs.readLoop, Stream.readExact, Segs.whole]
    | succ n =>
      rw [Segs.readLoop]
      split
      · rename_i hle
        rw [ih]
        simp only [Stream.readExact, List.flatten_cons, List.length_append]
        by_cases hc : n + 1 - seg.length ≤ segs.flatten.length
        · rw [if_pos hc, if_pos (by omega)]
          simp only [Outcome.bind_ok, Outcome.ok.injEq, Prod.mk.injEq, Stream.mk.injEq, and_true]
          refine ⟨?_, ?_⟩
          · rw [List.append_assoc, List.append_cancel_left_eq, List.take_append,
              List.take_of_length_le hle]
          · rw [List.drop_append, List.drop_of_length_le hle, List.nil_append]
        · rw [if_neg hc, if_neg (by omega)]
          rfl
      · rename_i hgt
        have h1 : n + 1 ≤ seg.length := by omega
        simp only [Stream.readExact, List.flatten_cons, List.length_append]
        rw [if_pos (by omega)]
        simp [Segs.whole, List.take_append_of_le_length h1, List.drop_append_of_le_length h1]

theorem sim_readExact (n : Nat) : Sim (readExact n) (readExact n) := by
  intro s
  have := readLoop_whole s.fin s.segs n []
  simp only [List.nil_append] at this
  rw [stream_readExact]
  change (Segs.readLoop s.fin n s.segs [] >>= fun r => .ok (r.1, r.2.whole)) = _
  rw [this]
  change _ = Stream.readExact n ⟨s.segs.flatten, s.fin⟩
  cases Stream.readExact n ⟨s.segs.flatten, s.fin⟩ <;> rfl

theorem sim_readU16 : Sim readU16 readU16 := by
  refine sim_bind (sim_readExact 2) ?_
  intro bs
  split
  · exact sim_pure _
  · exact sim_panic

theorem sim_readU32 : Sim readU32 readU32 := by
  refine sim_bind (sim_readExact 4) ?_
  intro bs
  split
  · exact sim_pure _
  · exact sim_panic

theorem sim_readCommand (p : Profile) : Sim (readCommand p) (readCommand p) := by
  unfold readCommand readSubmit readUnlink readHeader
  repeat' first
    | exact sim_readU16 | exact sim_readU32 | exact sim_readExact _
    | exact sim_assert _ _ | exact sim_pure _ | exact sim_err _
    | refine sim_bind ?_ ?_ | refine sim_ite ?_ ?_ | intro _

end Usbip
