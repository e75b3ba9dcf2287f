import Verif.Lemmas.Panics
import Verif.Props.Loss
/-!
# What makes a connection's task crash: C74
-/

namespace Usbip
open Spec Samples

/-- C74: in a history with unique bus ids, scheduling a live connection makes its task panic if and
only if (in builds with debug assertions) its next packet starts with a status other than zero or a
direction that is neither 0 nor 1, or the command it reads is a crashing one: a submit without an imported
device, a submit its device crashes on, or (in builds with debug assertions) a reply that does not
fit its record or carries data for a transfer that is not IN.  In particular giving a device back
when the client leaves never does (the `unreachable!()` is not reached), nor does an unlink. -/
theorem C74_panics {σ} (env : Env σ) (p : Profile) (devices : List Device) (w : World σ)
    (es : List (Event σ)) (hd : (devices.map Device.busId).Nodup)
    (hf : Fresh env p (Sys.init devices w) es) (c : Nat) (x : Conn)
    (hx : ((Sys.init devices w).run env p es).conns c = some x) (hr : x.status = .running) (wr : WriteRes) :
    (((Sys.init devices w).run env p (es ++ [.iterate c wr])).conns c).map Conn.status = some .panicked ↔
      (p.debugAssertions = true ∧ (BadStatus x.input.bytes ∨ BadDirection x.input.bytes)) ∨
      ∃ cmd rest, readCommand p x.input = .ok (cmd, rest) ∧
        Crashing env p ((Sys.init devices w).run env p es).shared x.current cmd := by
  have hi := Inv.run env p es _ (Inv.init devices w hd) hf
  have hrun : (Sys.init devices w).run env p (es ++ [.iterate c wr]) =
      ((Sys.init devices w).run env p es).step env p (.iterate c wr) := by
    simp [Sys.run, List.foldl_append]
  rw [hrun]
  generalize (Sys.init devices w).run env p es = s at hi hx ⊢
  simp only [Sys.step, hx, if_pos hr, setConn, if_true, Option.map_some, Option.some.injEq]
  have hcur : ∀ id, x.current = some id → ∃ d, amGet id s.shared.used = some d :=
    fun id h => amGet_of_mem (hi.held c x id hx hr h)
  have hn : (s.shared.available.map Device.busId).Nodup := (List.nodup_append.mp hi.nodup).1
  have hsc := fun cmd => serve_crash env p s.shared x.current cmd hcur hn
  rw [← readCommand_panic p x.input]
  have h := iterate_res env p s.shared x wr
  generalize (x.iterate env p s.shared wr).1 = s' at h
  generalize (x.iterate env p s.shared wr).2 = x' at h ⊢
  cases h with
  | done e s' hread hrel =>
    simp only [hread, reduceCtorEq, false_and, exists_const, or_self, iff_false]
    split <;> simp
  | missing e hread hrel =>
    exfalso
    unfold Shared.release at hrel
    cases hc : x.current with
    | none => rw [hc] at hrel; simp at hrel
    | some id =>
      obtain ⟨d, hg⟩ := hcur id hc
      rw [hc] at hrel; simp [hg] at hrel
  | readPanic hread =>
    rcases hread with hread | hread
    · simp [hread]
    · exact absurd hread (readCommand_ends p _)
  | answered cmd rest resp s' cur' bytes hread hs hb hw =>
    simp only [hr, hread, reduceCtorEq, false_or, Outcome.ok.injEq, Prod.mk.injEq, false_iff]
    rintro ⟨cmd', rest', ⟨rfl, _⟩, hcr⟩
    exact (hsc cmd).mp ⟨resp, bytes, by rw [hs], hb⟩ hcr
  | writeFailed cmd rest resp s' cur' bytes n e hread hs hb hw =>
    simp only [hread, reduceCtorEq, false_or, Outcome.ok.injEq, Prod.mk.injEq, false_iff]
    rintro ⟨cmd', rest', ⟨rfl, _⟩, hcr⟩
    exact (hsc cmd).mp ⟨resp, bytes, by rw [hs], hb⟩ hcr
  | writeCut cmd rest resp s' cur' bytes n hread hs hb hw =>
    simp only [hread, reduceCtorEq, false_or, Outcome.ok.injEq, Prod.mk.injEq, false_iff]
    rintro ⟨cmd', rest', ⟨rfl, _⟩, hcr⟩
    exact (hsc cmd).mp ⟨resp, bytes, by rw [hs], hb⟩ hcr
  | servePanic cmd rest hread hs =>
    simp only [hread, true_iff]
    refine .inr ⟨cmd, rest, rfl, ?_⟩
    apply Classical.byContradiction
    intro hcr
    obtain ⟨r, b, h1, h2⟩ := (hsc cmd).mpr hcr
    rcases hs with hs | ⟨r', h1', h2'⟩
    · exact hs r h1
    · rw [h1, Outcome.ok.injEq] at h1'
      subst h1'
      exact h2' b h2

/-- C74: a crash is silent: nothing is sent for the command that caused it, no other connection is touched,
and no device becomes available or is removed except by an import that was being executed. -/
theorem C74_silent {σ} (env : Env σ) (p : Profile) (s : Sys σ) (c : Nat) (x y : Conn) (wr : WriteRes)
    (hx : s.conns c = some x) (hr : x.status = .running)
    (hy : (s.step env p (.iterate c wr)).conns c = some y) (hp : y.status = .panicked) :
    y.output = x.output ∧ y.served = x.served ∧
    (∀ c', c' ≠ c → (s.step env p (.iterate c wr)).conns c' = s.conns c') ∧
    ((¬ ∃ st b rest, readCommand p x.input = .ok (.reqImport st b, rest)) →
      (s.step env p (.iterate c wr)).shared.available = s.shared.available ∧
      (s.step env p (.iterate c wr)).shared.used = s.shared.used) := by
  simp only [Sys.step, hx, if_pos hr, setConn, if_true, Option.some.injEq] at hy ⊢
  have hoth : ∀ c', c' ≠ c → (if c' = c then some (x.iterate env p s.shared wr).2 else s.conns c') = s.conns c' :=
    fun c' h => if_neg h
  have h := iterate_res env p s.shared x wr
  rw [hy] at h
  generalize (x.iterate env p s.shared wr).1 = s' at h ⊢
  cases h with
  | done e s' hread hrel =>
    simp only at hp
    split at hp <;> simp at hp
  | missing e hread hrel => exact ⟨rfl, rfl, hoth, fun _ => ⟨rfl, rfl⟩⟩
  | readPanic hread => exact ⟨rfl, rfl, hoth, fun _ => ⟨rfl, rfl⟩⟩
  | answered cmd rest resp s' cur' bytes hread hs hb hw => simp [hr] at hp
  | writeFailed cmd rest resp s' cur' bytes n e hread hs hb hw => simp at hp
  | writeCut cmd rest resp s' cur' bytes n hread hs hb hw => simp at hp
  | servePanic cmd rest hread hs =>
    refine ⟨rfl, rfl, hoth, fun hno => ?_⟩
    have hni : isImport cmd = false := by
      cases cmd with
      | reqImport st b => exact absurd ⟨st, b, rest, hread⟩ hno
      | _ => rfl
    have := serve_unchanged_lists env p s.shared x.current cmd hni
    exact ⟨this.1, this.2.1⟩

/-- Not vacuous: crashing and harmless packets of a connection that has imported "1-1", in both builds. -/
example :
    let next (p : Profile) (bs : Bytes) :=
      (((Sys.init [devA] world).run Samples.env p
        ([.connect 0 ⟨wireCmd (.reqImport 0 busA) ++ bs, .unexpectedEof⟩, .iterate 0 .full] ++ [.iterate 0 .full])).conns 0).map
          Conn.status
    let ask (dir ep : UInt32) (setup : Bytes) := wireCmd (.submit ⟨1, 1, 0, dir, ep⟩ 0 0 0 0 0 setup [] [])
    -- a control request to interface 9; the string with number 5; an endpoint that does not exist
    next release (ask 1 0 [0x81, 6, 0, 0x22, 9, 0, 64, 0]) = some .panicked ∧
    next dev (ask 1 0 [0x80, 6, 5, 3, 0, 0, 255, 0]) = some .running ∧
    next dev (ask 1 9 [0, 0, 0, 0, 0, 0, 0, 0]) = some .running ∧
    -- a direction of 2 is read as IN by a build without debug assertions
    next dev (ask 2 0 [0x80, 6, 5, 3, 0, 0, 255, 0]) = some .panicked ∧
    next release (ask 2 0 [0x80, 6, 5, 3, 0, 0, 255, 0]) = some .running ∧
    -- after an import of a device that is not there, a submit has no device
    next release (wireCmd (.reqImport 0 busB)) = some .running ∧
    next dev [0, 0, 0x80, 0x05, 0, 0, 0, 1] = some .panicked := by
  refine ⟨?_, ?_, ?_, ?_, ?_, ?_, ?_⟩ <;> decide +kernel

/-- The conditions of `BadStatus` and `BadDirection` on two of these packets. -/
example : BadStatus [0, 0, 0x80, 0x05, 0, 0, 0, 1] ∧
    BadDirection [1, 0x11, 0, 2, 0, 0, 0, 7, 0, 0, 0, 1, 0, 0, 0, 2] :=
  ⟨⟨[0, 0], [0x80, 0x05], [0, 0, 0, 1], [], rfl, by simp, by simp, rfl, by decide⟩,
   ⟨[1, 0x11], [0, 2], [0, 0, 0, 7, 0, 0, 0, 1], [0, 0, 0, 2], [], rfl, by simp, by simp, rfl, rfl, by decide, by decide⟩⟩

end Usbip
