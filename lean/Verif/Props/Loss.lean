import Verif.Props.Server
/-!
# Isolation of connections and loss of devices: C31, C47, C53
-/

namespace Usbip
open Spec Samples

/-! ## C31 -/

/-- C31: an event that is not connection `c`'s own (another connection's iteration, however it
ends, its cancellation, a new connection, a management call) leaves all of `c` as it was. -/
theorem C31_untouched {σ} (env : Env σ) (p : Profile) (s : Sys σ) (e : Event σ) (c : Nat)
    (h : actor e ≠ some c) : (s.step env p e).conns c = s.conns c := by
  cases e with
  | connect c' input =>
    have : c ≠ c' := by rintro rfl; exact h rfl
    cases hy : s.conns c' <;> simp [Sys.step, hy, setConn, this]
  | iterate c' w =>
    have : c ≠ c' := by rintro rfl; exact h rfl
    cases hy : s.conns c' with
    | none => simp [Sys.step, hy]
    | some y => by_cases hr : y.status = .running <;> simp [Sys.step, hy, hr, setConn, this]
  | cancel c' =>
    have : c ≠ c' := by rintro rfl; exact h rfl
    cases hy : s.conns c' with
    | none => simp [Sys.step, hy]
    | some y => by_cases hr : y.status = .running <;> simp [Sys.step, hy, hr, setConn, this]
  | addDevice d => rfl
  | removeDevice id => rfl
  | user f => rfl

/-- C31, in any state satisfying the invariant. -/
theorem device_untouched {σ} (env : Env σ) (p : Profile) (s : Sys σ) (hi : Inv s.shared s.conns)
    (e : Event σ) (c : Nat) (h : actor e ≠ some c) (id : Bytes) (hh : Holds s c id) :
    amGet id (s.step env p e).shared.used = amGet id s.shared.used := by
  obtain ⟨x, hx, hr, hc⟩ := hh
  cases e with
  | connect c' input => cases hy : s.conns c' <;> simp [Sys.step, hy]
  | cancel c' =>
    cases hy : s.conns c' with
    | none => simp [Sys.step, hy]
    | some y => by_cases hr : y.status = .running <;> simp [Sys.step, hy, hr]
  | addDevice d => rfl
  | removeDevice k => simp only [Sys.step]; rw [(C28_remove s.shared k).2.2.2.1]
  | user f => rfl
  | iterate c' w =>
    have hne : c ≠ c' := by rintro rfl; exact h rfl
    cases hy : s.conns c' with
    | none => simp [Sys.step, hy]
    | some y =>
      by_cases hyr : y.status = .running
      · simp only [Sys.step, hy, hyr, if_true]
        have heff := iterate_Effect env p s.shared y w
        generalize (y.iterate env p s.shared w).1 = sh' at *
        generalize (y.iterate env p s.shared w).2.current = cur' at *
        cases heff with
        | keep ha hu => rw [hu]
        | refuse ha hu => rw [hu]
        | grant d l1 l2 hl ha hu =>
          rw [hu]
          apply amGet_insert_ne
          rintro rfl
          have hn := hi.nodup
          rw [List.nodup_append] at hn
          exact hn.2.2 _ (by rw [hl]; simp) _ (hi.held c x _ hx hr hc) rfl
        | release id' d hc' hg ha hu =>
          rw [hu]
          apply amGet_erase_ne
          rintro rfl
          exact hi.own c c' x y id hne hx hy hr hyr hc hc'
      · simp [Sys.step, hy, hyr]

/-- C31: in histories with unique bus ids, the device a live connection has imported stays
recorded for it, unchanged, whatever event of others happens. -/
theorem C31_device {σ} (env : Env σ) (p : Profile) (devices : List Device) (w : World σ)
    (es : List (Event σ)) (hd : (devices.map Device.busId).Nodup)
    (hf : Fresh env p (Sys.init devices w) es) (s : Sys σ) (hs : s = (Sys.init devices w).run env p es)
    (e : Event σ) (c : Nat) (h : actor e ≠ some c) (id : Bytes) (hh : Holds s c id) :
    Holds (s.step env p e) c id ∧
    ∃ d, amGet id s.shared.used = some d ∧ amGet id (s.step env p e).shared.used = some d := by
  have hi : Inv s.shared s.conns := by rw [hs]; exact Inv.run env p es _ (Inv.init devices w hd) hf
  have hun := C31_untouched env p s e c h
  have hdev := device_untouched env p s hi e c h id hh
  obtain ⟨x, hx, hr, hc⟩ := hh
  refine ⟨⟨x, by rw [hun]; exact hx, hr, hc⟩, ?_⟩
  obtain ⟨d, hg⟩ := amGet_of_mem (hi.held c x id hx hr hc)
  exact ⟨d, hg, by rw [hdev]; exact hg⟩

/-- Without unique bus ids it fails: connection 0 has a device "1-1", connection 1 imports another
"1-1", and connection 0's is gone. -/
theorem C31_needs_unique :
    let s := (Sys.init [devA, { devA with productId := 5 }] Samples.world).run Samples.env release
      (raceEvents.take 3)
    let s' := s.step Samples.env release (.iterate 1 .full)
    (amGet devA.busId s.shared.used).map Device.productId = some 0xABCD ∧
    (amGet devA.busId s'.shared.used).map Device.productId = some 5 ∧
    (s'.conns 0).map (fun x => (x.status, x.current)) = some (.running, some devA.busId) := by
  decide

example : actor (.iterate 1 .full : Event Nat) ≠ some 0 := by simp [actor]

/-! ## C47 -/

/-- C47: all devices made by `UsbDevice::new` have the same bus id "0-0-0". -/
theorem C47_all_equal (p : Profile) (i : UInt32) (d : Device) (h : Device.new p i = .ok d) :
    d.busId = [48, 45, 48, 45, 48] := by
  simp only [Device.new, Outcome.bind_eq_ok] at h
  obtain ⟨⟨m, d1⟩, h1, ⟨q, d2⟩, h2, ⟨r, d3⟩, h3, ⟨t, d4⟩, h4, h⟩ := h
  simp only [Outcome.pure_eq, Outcome.ok.injEq] at h
  have e1 := (newString_inv h1).2
  have e2 := (newString_inv h2).2
  have e3 := (newString_inv h3).2
  have e4 := (newString_inv h4).2
  rw [← h, e4, e3, e2, e1]
  rfl

/-- One granted import, as a step of the server. -/
theorem import_step {σ} (env : Env σ) (p : Profile) (s : Sys σ) (c : Nat) (x : Conn)
    (l1 l2 : List Device) (d : Device) (b : Bytes) (t : UInt32) (r : Stream)
    (hx : s.conns c = some x) (hrun : x.status = .running)
    (hr : readCommand p x.input = .ok (.reqImport t b, r))
    (hav : s.shared.available = l1 ++ d :: l2) (hd : d.busId = cstr b)
    (hl : ∀ y ∈ l1, y.busId ≠ cstr b) (hfit : d.path.length ≤ 256 ∧ d.busId.length ≤ 32) :
    ∃ bytes served, decodeImport bytes = some (.import 0 (some (devInfo d)), []) ∧
      s.step env p (.iterate c .full) =
        { shared := { s.shared with available := l1 ++ l2, used := amInsert d.busId d s.shared.used }
          conns := setConn s.conns c { x with
            input := r, current := some d.busId, output := x.output ++ bytes, served := served } } := by
  have htake : takeFirst (busidCompare b) s.shared.available = some (d, l1 ++ l2) :=
    takeFirst_some.mpr ⟨l1, l2, hav, rfl, hd, hl⟩
  have hserve : s.shared.serve env p x.current (.reqImport t b) = (.ok (opRepImportSuccess d),
      { s.shared with available := l1 ++ l2, used := amInsert d.busId d s.shared.used },
      some d.busId) := by
    simp only [Shared.serve, Shared.import, htake]
  obtain ⟨bytes, hb⟩ := import_reply_bytes p d (fun _ => hfit)
  refine ⟨bytes, x.served ++ [(.reqImport t b, opRepImportSuccess d)], ?_, ?_⟩
  · have := decodeReply_bytes (opRepImportSuccess d) bytes [] hb
      (by simp [Representable, opRepImportSuccess])
    rw [List.append_nil] at this
    exact this
  · simp only [Sys.step, hx, hrun, if_true]
    rw [iterate_answered env p s.shared x _ r _ _ _ bytes hr hserve hb, hrun]

/-- C47: let two available devices `d₁`, `d₂` share the bus id `id` (no other device does), and let
connections 1 and 2, holding nothing, ask for `id` in turn.  Then both live on with `id` as their
device and were told so, and `d₁` is nowhere on the server any more.  When connection 1 is closed,
`d₂` goes back to the available list and nothing is recorded for connection 2, whose next URB, or
whose close, panics. -/
theorem C47_destroy {σ} (env : Env σ) (p : Profile) (s : Sys σ) (c₁ c₂ : Nat) (x₁ x₂ : Conn)
    (hne : c₁ ≠ c₂) (l₁ l₂ l₃ : List Device) (d₁ d₂ : Device) (id b₁ b₂ : Bytes) (t₁ t₂ : UInt32)
    (r₁ r₂ : Stream) (e : ErrKind)
    (hav : s.shared.available = l₁ ++ d₁ :: l₂ ++ d₂ :: l₃) (hid₁ : d₁.busId = id) (hid₂ : d₂.busId = id)
    (hoth : ∀ y ∈ l₁ ++ l₂ ++ l₃, y.busId ≠ id) (hu : amGet id s.shared.used = none)
    (hfit : ∀ d ∈ [d₁, d₂], d.path.length ≤ 256 ∧ d.busId.length ≤ 32)
    (hx₁ : s.conns c₁ = some x₁) (hx₂ : s.conns c₂ = some x₂)
    (hs₁ : x₁.status = .running) (hs₂ : x₂.status = .running)
    (hr₁ : readCommand p x₁.input = .ok (.reqImport t₁ b₁, r₁)) (hb₁ : cstr b₁ = id)
    (hr₂ : readCommand p x₂.input = .ok (.reqImport t₂ b₂, r₂)) (hb₂ : cstr b₂ = id)
    (he : readCommand p r₁ = .err e) :
    -- both imports are granted
    (∃ y₁ y₂ s₁ s₂, (s.run env p [.iterate c₁ .full, .iterate c₂ .full]).conns c₁ = some y₁ ∧
      (s.run env p [.iterate c₁ .full, .iterate c₂ .full]).conns c₂ = some y₂ ∧
      y₁.status = .running ∧ y₂.status = .running ∧ y₁.current = some id ∧ y₂.current = some id ∧
      y₁.output = x₁.output ++ s₁ ∧ y₂.output = x₂.output ++ s₂ ∧
      decodeImport s₁ = some (.import 0 (some (devInfo d₁)), []) ∧
      decodeImport s₂ = some (.import 0 (some (devInfo d₂)), [])) ∧
    -- only `d₂` is left
    (s.run env p [.iterate c₁ .full, .iterate c₂ .full]).shared.available = l₁ ++ l₂ ++ l₃ ∧
    (s.run env p [.iterate c₁ .full, .iterate c₂ .full]).shared.used = (id, d₂) :: s.shared.used ∧
    -- closing connection 1 hands out connection 2's device
    (s.run env p [.iterate c₁ .full, .iterate c₂ .full, .iterate c₁ .full]).shared.available
      = l₁ ++ l₂ ++ l₃ ++ [d₂] ∧
    (s.run env p [.iterate c₁ .full, .iterate c₂ .full, .iterate c₁ .full]).shared.used
      = s.shared.used ∧
    -- and connection 2 panics at its next URB or at its end
    (((∃ k, readCommand p r₂ = .err k) ∨
      (∃ h a b c d e f g i r, readCommand p r₂ = .ok (.submit h a b c d e f g i, r))) →
      ∀ wr, ∃ y, (s.run env p [.iterate c₁ .full, .iterate c₂ .full, .iterate c₁ .full,
        .iterate c₂ wr]).conns c₂ = some y ∧ y.status = .panicked) := by
  have hfit₁ := hfit d₁ (by simp)
  have hfit₂ := hfit d₂ (by simp)
  obtain ⟨bs₁, sv₁, hdec₁, hst₁⟩ := import_step env p s c₁ x₁ l₁ (l₂ ++ d₂ :: l₃) d₁ b₁ t₁ r₁ hx₁ hs₁
    hr₁ (by rw [hav]; simp) (by rw [hid₁, hb₁])
    (fun y hy => by rw [hb₁]; exact hoth y (by simp [hy])) hfit₁
  have hab := amGet_none.mp hu
  have hu₁ : amInsert d₁.busId d₁ s.shared.used = (id, d₁) :: s.shared.used := by
    rw [hid₁, amInsert, amErase_absent hab]
  rw [hu₁] at hst₁
  generalize hz : ({ x₁ with input := r₁, current := some d₁.busId, output := x₁.output ++ bs₁
                             served := sv₁ } : Conn) = z₁ at hst₁
  generalize hS₁ : s.step env p (.iterate c₁ .full) = S₁ at hst₁
  have hS₁x₂ : S₁.conns c₂ = some x₂ := by
    rw [hst₁]; simp [setConn, Ne.symm hne, hx₂]
  obtain ⟨bs₂, sv₂, hdec₂, hst₂⟩ := import_step env p S₁ c₂ x₂ (l₁ ++ l₂) l₃ d₂ b₂ t₂ r₂ hS₁x₂ hs₂
    hr₂ (by rw [hst₁]; simp) (by rw [hid₂, hb₂])
    (fun y hy => by rw [hb₂]; exact hoth y (by rcases List.mem_append.mp hy with h | h <;> simp [h])) hfit₂
  have hu₂ : amInsert d₂.busId d₂ S₁.shared.used = (id, d₂) :: s.shared.used := by
    rw [hid₂, hst₁]
    simp only [amInsert, List.cons.injEq, true_and]
    have : amErase id ((id, d₁) :: s.shared.used) = amErase id s.shared.used := by
      unfold amErase
      rw [List.filter_cons_of_neg (by simp)]
    rw [this, amErase_absent hab]
  rw [hu₂] at hst₂
  generalize hz' : ({ x₂ with input := r₂, current := some d₂.busId, output := x₂.output ++ bs₂
                              served := sv₂ } : Conn) = z₂ at hst₂
  generalize hS₂ : S₁.step env p (.iterate c₂ .full) = S₂ at hst₂
  have hrun2 : s.run env p [.iterate c₁ .full, .iterate c₂ .full] = S₂ := by
    simp only [Sys.run, List.foldl_cons, List.foldl_nil, hS₁, hS₂]
  have hz₁ : S₂.conns c₁ = some z₁ := by
    rw [hst₂]; simp only [setConn, hne, if_false]; rw [hst₁]; simp [setConn]
  have hz₂ : S₂.conns c₂ = some z₂ := by rw [hst₂]; simp [setConn]
  have hz₁s : z₁.status = .running := by rw [← hz]; exact hs₁
  have hz₂s : z₂.status = .running := by rw [← hz']; exact hs₂
  have hz₁c : z₁.current = some id := by rw [← hz, hid₁]
  have hz₂c : z₂.current = some id := by rw [← hz', hid₂]
  have hS₂a : S₂.shared.available = l₁ ++ l₂ ++ l₃ := by rw [hst₂]
  have hS₂u : S₂.shared.used = (id, d₂) :: s.shared.used := by rw [hst₂]
  have hst₃ : S₂.step env p (.iterate c₁ .full) =
      { shared := { S₂.shared with available := l₁ ++ l₂ ++ l₃ ++ [d₂], used := s.shared.used }
        conns := setConn S₂.conns c₁ { z₁ with
          current := none, status := if e = .unexpectedEof then .closed else .failed e } } := by
    have hread : readCommand p z₁.input = .err e := by rw [← hz]; exact he
    have hg : amGet id S₂.shared.used = some d₂ := by rw [hS₂u]; simp [amGet]
    have her : amErase id S₂.shared.used = s.shared.used := by
      rw [hS₂u]
      unfold amErase
      rw [List.filter_cons_of_neg (by simp)]
      exact amErase_absent hab
    have hit : z₁.iterate env p S₂.shared .full =
        ({ S₂.shared with available := l₁ ++ l₂ ++ l₃ ++ [d₂], used := s.shared.used },
         { z₁ with current := none, status := if e = .unexpectedEof then .closed else .failed e }) := by
      unfold Conn.iterate
      rw [hread]
      simp only [Shared.release, hz₁c, hg, her, hS₂a]
    simp only [Sys.step, hz₁, hz₁s, if_true, hit]
  generalize hS₃ : S₂.step env p (.iterate c₁ .full) = S₃ at hst₃
  have hrun3 : s.run env p [.iterate c₁ .full, .iterate c₂ .full, .iterate c₁ .full] = S₃ := by
    simp only [Sys.run, List.foldl_cons, List.foldl_nil, hS₁, hS₂, hS₃]
  rw [hrun2, hrun3]
  refine ⟨⟨z₁, z₂, bs₁, bs₂, hz₁, hz₂, hz₁s, hz₂s, hz₁c, hz₂c, ?_, ?_, hdec₁, hdec₂⟩, hS₂a, hS₂u,
    by rw [hst₃], by rw [hst₃], ?_⟩
  · rw [← hz]
  · rw [← hz']
  · intro hnext wr
    have hrun4 : s.run env p [.iterate c₁ .full, .iterate c₂ .full, .iterate c₁ .full, .iterate c₂ wr]
        = S₃.step env p (.iterate c₂ wr) := by
      simp only [Sys.run, List.foldl_cons, List.foldl_nil, hS₁, hS₂, hS₃]
    rw [hrun4]
    have hc₂ : S₃.conns c₂ = some z₂ := by rw [hst₃]; simp [setConn, Ne.symm hne, hz₂]
    have hgone : amGet id S₃.shared.used = none := by rw [hst₃]; exact hu
    have hin : z₂.input = r₂ := by rw [← hz']
    simp only [Sys.step, hc₂, hz₂s, if_true]
    refine ⟨(z₂.iterate env p S₃.shared wr).2, by simp [setConn], ?_⟩
    rcases hnext with ⟨k, hk⟩ | ⟨h, a, b, c, d, e, f, g, i, r, hk⟩
    · unfold Conn.iterate
      rw [hin, hk]
      simp only [Shared.release, hz₂c, hgone]
    · rw [C32_no_device env p S₃.shared z₂ r h a b c d e f g i wr (by rw [hin]; exact hk)
        (fun id' hid' => by rw [hz₂c] at hid'; simp only [Option.some.injEq] at hid'; rw [← hid']; exact hgone)]

/-- A server with two "1-1" and two connections asking for it; the second goes on to send a URB. -/
def twinSys : Sys Nat :=
  (Sys.init [devA, { devA with productId := 5 }] Samples.world).run Samples.env dev
    [.connect 0 ⟨wireCmd (.reqImport 0 busA), .unexpectedEof⟩,
     .connect 1 ⟨wireCmd (.reqImport 0 busA) ++ wireCmd cmdGetDesc, .unexpectedEof⟩]

example : twinSys.shared.available = [] ++ devA :: [] ++ { devA with productId := 5 } :: [] ∧
    (twinSys.conns 0).isSome ∧ (twinSys.conns 1).isSome ∧
    readCommand dev (⟨wireCmd (.reqImport 0 busA), .unexpectedEof⟩ : Stream)
      = .ok (.reqImport 0 busA, ⟨[], .unexpectedEof⟩) ∧
    readCommand dev (⟨[], .unexpectedEof⟩ : Stream) = .err .unexpectedEof ∧
    readCommand dev (⟨wireCmd cmdGetDesc, .unexpectedEof⟩ : Stream)
      = .ok (cmdGetDesc, ⟨[], .unexpectedEof⟩) := by
  refine ⟨rfl, rfl, rfl, by decide, by decide, by decide⟩

/-! ## C53 -/

/-- Imported devices are always recorded under their own bus id. -/
def Keyed {σ} (sh : Shared σ) : Prop := ∀ e ∈ sh.used, e.2.busId = e.1

theorem keyed_effect {σ} {s s' : Shared σ} {cur cur'} (h : Effect s cur s' cur') (hk : Keyed s) :
    Keyed s' := by
  cases h with
  | keep ha hu => unfold Keyed; rw [hu]; exact hk
  | refuse ha hu => unfold Keyed; rw [hu]; exact hk
  | grant d l1 l2 hl ha hu =>
    unfold Keyed
    rw [hu]
    intro e he
    rcases List.mem_cons.mp he with rfl | he
    · rfl
    · exact hk e (amErase_mem.mp he).1
  | release id d hc hg ha hu =>
    unfold Keyed
    rw [hu]
    intro e he
    exact hk e (amErase_mem.mp he).1

theorem keyed_step {σ} (env : Env σ) (p : Profile) (s : Sys σ) (e : Event σ) (hk : Keyed s.shared) :
    Keyed (s.step env p e).shared := by
  cases e with
  | connect c input => cases hy : s.conns c <;> simpa only [Sys.step, hy] using hk
  | iterate c w =>
    cases hy : s.conns c with
    | none => simpa only [Sys.step, hy] using hk
    | some y =>
      by_cases hr : y.status = .running
      · simp only [Sys.step, hy, hr, if_true]
        exact keyed_effect (iterate_Effect env p s.shared y w) hk
      · simpa only [Sys.step, hy, hr, if_false] using hk
  | cancel c =>
    cases hy : s.conns c with
    | none => simpa only [Sys.step, hy] using hk
    | some y => by_cases hr : y.status = .running <;> simpa only [Sys.step, hy, hr, if_true, if_false] using hk
  | addDevice d => exact hk
  | removeDevice k => unfold Keyed; simp only [Sys.step]; rw [(C28_remove s.shared k).2.2.2.1]; exact hk
  | user f => exact hk

theorem keyed_run {σ} (env : Env σ) (p : Profile) (es : List (Event σ)) : ∀ (s : Sys σ),
    Keyed s.shared → Keyed (s.run env p es).shared := by
  induction es with
  | nil => intro s h; exact h
  | cons e es ih => intro s h; exact ih _ (keyed_step env p s e h)

theorem lost_stays {σ} (env : Env σ) (p : Profile) (es : List (Event σ)) (id : Bytes) (d : Device) :
    ∀ (s : Sys σ), Keyed s.shared → amGet id s.shared.used = some d → d.busId = id →
    (∀ y ∈ s.shared.available, y.busId ≠ id) → (∀ c, ¬ Holds s c id) →
    (∀ y, .addDevice y ∈ es → y.busId ≠ id) →
    amGet id (s.run env p es).shared.used = some d ∧ (∀ c, ¬ Holds (s.run env p es) c id) ∧
    (∀ y ∈ (s.run env p es).shared.available, y.busId ≠ id) ∧
    (∀ cur st busid, BusField busid id →
      (s.run env p es).shared.serve env p cur (.reqImport st busid)
        = (.ok (.repImport 1 none), (s.run env p es).shared, none)) ∧
    (s.run env p es).shared.removeDevice id = (.err .other, (s.run env p es).shared) := by
  induction es with
  | nil =>
    intro s _ hg hd ha hh _
    refine ⟨hg, hh, ha, ?_, ?_⟩
    · intro cur st busid hbf
      have hc := cstr_busField hbf
      have : takeFirst (busidCompare busid) s.shared.available = none := by
        rw [busidCompare_eq, hc]; exact takeFirst_none.mpr ha
      show s.shared.serve env p cur (.reqImport st busid) = _
      simp only [Shared.serve, Shared.import, this]
      rfl
    · exact (C28_remove s.shared id).2.1 ha ⟨(id, d), amGet_mem hg, hd⟩
  | cons e es ih =>
    intro s hk hg hd ha hh hadd
    have hrun : s.run env p (e :: es) = (s.step env p e).run env p es := rfl
    rw [hrun]
    have hstep : amGet id (s.step env p e).shared.used = some d ∧
        (∀ y ∈ (s.step env p e).shared.available, y.busId ≠ id) ∧
        (∀ c, ¬ Holds (s.step env p e) c id) := by
      cases e with
      | connect c input =>
        cases hy : s.conns c with
        | some y => simp only [Sys.step, hy]; exact ⟨hg, ha, hh⟩
        | none =>
          simp only [Sys.step, hy]
          refine ⟨hg, ha, ?_⟩
          rintro c' ⟨x, hx, hr, hc⟩
          simp only [setConn] at hx
          split at hx
          · simp only [Option.some.injEq] at hx
            subst hx
            simp [Conn.new] at hc
          · exact hh c' ⟨x, hx, hr, hc⟩
      | cancel c =>
        cases hy : s.conns c with
        | none => simp only [Sys.step, hy]; exact ⟨hg, ha, hh⟩
        | some y =>
          by_cases hyr : y.status = .running
          · simp only [Sys.step, hy, hyr, if_true]
            refine ⟨hg, ha, ?_⟩
            rintro c' ⟨x, hx, hr, hc⟩
            simp only [setConn] at hx
            split at hx
            · simp only [Option.some.injEq] at hx
              subst hx
              simp at hr
            · exact hh c' ⟨x, hx, hr, hc⟩
          · simp only [Sys.step, hy, hyr, if_false]; exact ⟨hg, ha, hh⟩
      | addDevice y =>
        refine ⟨hg, ?_, hh⟩
        intro z hz
        simp only [Sys.step, Shared.addDevice, List.mem_append, List.mem_singleton] at hz
        rcases hz with hz | rfl
        · exact ha z hz
        · exact hadd z (by simp)
      | removeDevice k =>
        refine ⟨?_, ?_, hh⟩
        · simp only [Sys.step]; rw [(C28_remove s.shared k).2.2.2.1]; exact hg
        · intro z hz
          simp only [Sys.step] at hz
          rcases removeDevice_cases s.shared k with ⟨d', l1, l2, hl, _, _, hr⟩ | ⟨_, _, hr⟩ | ⟨_, _, hr⟩
          · rw [hr] at hz
            simp only [List.mem_append] at hz
            exact ha z (by rw [hl]; rcases hz with h | h <;> simp [h])
          · rw [hr] at hz; exact ha z hz
          · rw [hr] at hz; exact ha z hz
      | user f => exact ⟨hg, ha, hh⟩
      | iterate c wr =>
        cases hy : s.conns c with
        | none => simp only [Sys.step, hy]; exact ⟨hg, ha, hh⟩
        | some y =>
          by_cases hyr : y.status = .running
          · simp only [Sys.step, hy, hyr, if_true]
            have hycur : y.current ≠ some id := fun hc => hh c ⟨y, hy, hyr, hc⟩
            have heff := iterate_Effect env p s.shared y wr
            generalize (y.iterate env p s.shared wr).1 = sh' at *
            generalize (y.iterate env p s.shared wr).2 = y' at *
            have hlists : amGet id sh'.used = some d ∧ (∀ z ∈ sh'.available, z.busId ≠ id) ∧
                y'.current ≠ some id := by
              generalize y'.current = cur' at *
              cases heff with
              | keep ha' hu => rw [ha', hu]; exact ⟨hg, ha, hycur⟩
              | refuse ha' hu => rw [ha', hu]; exact ⟨hg, ha, by simp⟩
              | grant d' l1 l2 hl ha' hu =>
                have hne : d'.busId ≠ id := ha d' (by rw [hl]; simp)
                rw [ha', hu, amGet_insert_ne (Ne.symm hne)]
                refine ⟨hg, ?_, by simpa using hne⟩
                intro z hz
                exact ha z (by rw [hl]; rcases List.mem_append.mp hz with h | h <;> simp [h])
              | release id' d' hc' hg' ha' hu =>
                have hne : id ≠ id' := by rintro rfl; exact hycur hc'
                rw [ha', hu, amGet_erase_ne hne]
                refine ⟨hg, ?_, by simp⟩
                intro z hz
                simp only [List.mem_append, List.mem_singleton] at hz
                rcases hz with hz | rfl
                · exact ha z hz
                · rw [hk _ (amGet_mem hg')]; exact Ne.symm hne
            refine ⟨hlists.1, hlists.2.1, ?_⟩
            rintro c' ⟨x, hx, hr, hc⟩
            simp only [setConn] at hx
            split at hx
            · simp only [Option.some.injEq] at hx
              subst hx
              exact hlists.2.2 hc
            · exact hh c' ⟨x, hx, hr, hc⟩
          · simp only [Sys.step, hy, hyr, if_false]; exact ⟨hg, ha, hh⟩
    exact ih _ (keyed_step env p s e hk) hstep.1 hd hstep.2.1 hstep.2.2 (fun y hy => hadd y (by simp [hy]))

/-- C53: after any history `es₀`, let a device be lost: recorded as imported under `id`, held by no
live connection, no available device with its bus id.  In every continuation `es` in which nobody
adds a device with that bus id it stays lost: still recorded and held by nobody, not listed, every
import of it refused, and `remove_device` reports it as in use and changes nothing. -/
theorem C53_permanent {σ} (env : Env σ) (p : Profile) (devices : List Device) (w : World σ)
    (es₀ es : List (Event σ)) (id : Bytes) (s t : Sys σ)
    (hs : s = (Sys.init devices w).run env p es₀) (ht : t = s.run env p es)
    (hor : Orphan s id) (ha : ∀ y ∈ s.shared.available, y.busId ≠ id)
    (hadd : ∀ y, .addDevice y ∈ es → y.busId ≠ id) :
    Orphan t id ∧ (∀ y ∈ t.shared.available, y.busId ≠ id) ∧
    (∀ cur st busid, BusField busid id →
      t.shared.serve env p cur (.reqImport st busid) = (.ok (.repImport 1 none), t.shared, none)) ∧
    t.shared.removeDevice id = (.err .other, t.shared) := by
  obtain ⟨⟨d, hg⟩, hh⟩ := hor
  have hk : Keyed s.shared := by
    rw [hs]
    exact keyed_run env p es₀ _ (by intro e he; simp [Sys.init, Shared.newSimulated] at he)
  have := lost_stays env p es id d s hk hg (hk _ (amGet_mem hg)) ha hh hadd
  rw [← ht] at this
  exact ⟨⟨⟨d, this.1⟩, this.2.1⟩, this.2.2.1, this.2.2.2.1, this.2.2.2.2⟩

/-- C53: exactly how a device gets lost.  In a history with unique bus ids let live connection `c`
hold device `id`.  After the next event, whatever it is, the device is lost if and only if the
event is the cancellation of `c`'s task, or an iteration of `c` that reads another import command,
or reads a command whose reply cannot be sent (or is dropped while it sends it), or panics. -/
theorem C53_how {σ} (env : Env σ) (p : Profile) (devices : List Device) (w : World σ)
    (es : List (Event σ)) (hd : (devices.map Device.busId).Nodup)
    (hf : Fresh env p (Sys.init devices w) es) (s : Sys σ) (hs : s = (Sys.init devices w).run env p es)
    (c : Nat) (x : Conn) (id : Bytes) (hx : s.conns c = some x) (hrun : x.status = .running)
    (hcur : x.current = some id) (e : Event σ) :
    Orphan (s.step env p e) id ↔
      e = .cancel c ∨ ∃ wr, e = .iterate c wr ∧
        ((∃ st b rest, readCommand p x.input = .ok (.reqImport st b, rest)) ∨
         (∃ n cmd rest, ((∃ k, wr = .fail n k) ∨ wr = .cut n) ∧ readCommand p x.input = .ok (cmd, rest)) ∨
         (∃ y, (s.step env p e).conns c = some y ∧ y.status = .panicked)) := by
  have hi : Inv s.shared s.conns := by rw [hs]; exact Inv.run env p es _ (Inv.init devices w hd) hf
  have hm := hi.held c x id hx hrun hcur
  obtain ⟨d, hg⟩ := amGet_of_mem hm
  by_cases hact : actor e = some c
  · cases e with
    | addDevice d => simp [actor] at hact
    | removeDevice k => simp [actor] at hact
    | user f => simp [actor] at hact
    | connect c' input =>
      simp only [actor, Option.some.injEq] at hact
      subst hact
      simp only [Sys.step, hx, reduceCtorEq, false_and, exists_false, or_self, iff_false]
      intro ho
      exact ho.2 c' ⟨x, hx, hrun, hcur⟩
    | cancel c' =>
      simp only [actor, Option.some.injEq] at hact
      subst hact
      simp only [true_or, iff_true]
      simp only [Sys.step, hx, hrun, if_true]
      refine ⟨⟨d, hg⟩, ?_⟩
      rintro c₂ ⟨y, hy, hr, hc⟩
      simp only [setConn] at hy
      split at hy
      · simp only [Option.some.injEq] at hy
        subst hy
        simp at hr
      · rename_i hne
        exact hi.own c₂ c' y x id hne hy hx hr hrun hc hcur
    | iterate c' wr =>
      simp only [actor, Option.some.injEq] at hact
      subst hact
      have hothers : ∀ (sh : Shared σ) (y : Conn), (∃ d, amGet id sh.used = some d) →
          ¬ (y.status = .running ∧ y.current = some id) →
          Orphan { shared := sh, conns := setConn s.conns c' y } id := by
        intro sh y hex hy
        refine ⟨hex, ?_⟩
        rintro c₂ ⟨z, hz, hr, hc⟩
        simp only [setConn] at hz
        split at hz
        · simp only [Option.some.injEq] at hz
          subst hz
          exact hy ⟨hr, hc⟩
        · rename_i hne
          exact hi.own c₂ c' z x id hne hz hx hr hrun hc hcur
      simp only [reduceCtorEq, Event.iterate.injEq, true_and, false_or]
      have hstep : s.step env p (.iterate c' wr) =
          { shared := (x.iterate env p s.shared wr).1
            conns := setConn s.conns c' (x.iterate env p s.shared wr).2 } := by
        simp only [Sys.step, hx, hrun, if_true]
      have hres := iterate_res env p s.shared x wr
      rw [hstep]
      generalize (x.iterate env p s.shared wr).1 = sh' at *
      generalize (x.iterate env p s.shared wr).2 = x' at *
      have hself : (setConn s.conns c' x') c' = some x' := by simp [setConn]
      -- what serving does to `id`
      have hserve : ∀ cmd, (∃ d, amGet id (s.shared.serve env p x.current cmd).2.1.used = some d) ∧
          (isImport cmd = true → (s.shared.serve env p x.current cmd).2.2 ≠ some id) := by
        intro cmd
        have hav : ∀ y ∈ s.shared.available, y.busId ≠ id := by
          intro y hy he
          have hn := hi.nodup
          rw [List.nodup_append] at hn
          exact hn.2.2 id (List.mem_map.mpr ⟨y, hy, he⟩) id hm rfl
        rcases serve_effect env p s.shared x.current cmd with
          ⟨st, b, d', l1, l2, _, hl, _, _, h⟩ | ⟨st, b, _, _, h⟩ | ⟨h0, h1, h2, h3⟩
        · rw [h]
          have hne : id ≠ d'.busId := Ne.symm (hav d' (by rw [hl]; simp))
          refine ⟨⟨d, by rw [amGet_insert_ne hne]; exact hg⟩, fun _ => by simpa using Ne.symm hne⟩
        · rw [h]; exact ⟨⟨d, hg⟩, fun _ => by simp⟩
        · rw [h2]; exact ⟨⟨d, hg⟩, fun h => by rw [h0] at h; simp at h⟩
      constructor
      · intro ho
        refine ⟨wr, rfl, ?_⟩
        cases hres with
        | done k s' hr hrel =>
          exfalso
          obtain ⟨⟨d', hd'⟩, _⟩ := ho
          rw [hcur] at hrel
          simp only [Shared.release, hg, Option.some.injEq] at hrel
          subst hrel
          have : amGet id (amErase id s.shared.used) = none := by rw [amGet_none]; simp [amErase]
          rw [this] at hd'
          simp at hd'
        | missing k hr hrel => exact Or.inr (Or.inr ⟨_, hself, rfl⟩)
        | readPanic hr => exact Or.inr (Or.inr ⟨_, hself, rfl⟩)
        | answered cmd rest resp s' cur' bytes hr hsv hb hw =>
          left
          by_cases himp : isImport cmd = true
          · cases cmd with
            | reqImport st b => exact ⟨st, b, rest, hr⟩
            | _ => simp [isImport] at himp
          · exfalso
            have hl := (serve_unchanged_lists env p s.shared x.current cmd (by simpa using himp)).2.2
            rw [hsv] at hl
            exact ho.2 c' ⟨_, hself, hrun, by rw [← hcur]; exact hl⟩
        | writeFailed cmd rest resp s' cur' bytes n k hr hsv hb hw =>
          exact Or.inr (Or.inl ⟨n, cmd, rest, .inl ⟨k, hw⟩, hr⟩)
        | writeCut cmd rest resp s' cur' bytes n hr hsv hb hw =>
          exact Or.inr (Or.inl ⟨n, cmd, rest, .inr hw, hr⟩)
        | servePanic cmd rest hr hsv => exact Or.inr (Or.inr ⟨_, hself, rfl⟩)
      · rintro ⟨wr', hwr, hcause⟩
        subst hwr
        cases hres with
        | done k s' hr hrel =>
          exfalso
          rcases hcause with ⟨st, b, rest, h⟩ | ⟨n, cmd, rest, _, h⟩ | ⟨y, hy, hp⟩
          · rw [hr] at h; simp at h
          · rw [hr] at h; simp at h
          · have hy : (setConn s.conns c' _) c' = some y := hy
            rw [hself] at hy
            simp only [Option.some.injEq] at hy
            rw [← hy] at hp
            dsimp only at hp
            split at hp <;> simp at hp
        | missing k hr hrel => exact hothers _ _ ⟨d, hg⟩ (by simp)
        | readPanic hr => exact hothers _ _ ⟨d, hg⟩ (by simp)
        | answered cmd rest resp s' cur' bytes hr hsv hb hw =>
          have h1 := hserve cmd
          rw [hsv] at h1
          apply hothers _ _ h1.1
          rintro ⟨_, hc⟩
          rcases hcause with ⟨st, b, rest', h⟩ | ⟨n, cmd', rest', h, _⟩ | ⟨y, hy, hp⟩
          · rw [hr] at h
            simp only [Outcome.ok.injEq, Prod.mk.injEq] at h
            obtain ⟨rfl, _⟩ := h
            exact h1.2 rfl hc
          · rw [hw] at h; simp at h
          · have hy : (setConn s.conns c' _) c' = some y := hy
            rw [hself] at hy
            simp only [Option.some.injEq] at hy
            rw [← hy] at hp
            simp [hrun] at hp
        | writeFailed cmd rest resp s' cur' bytes n k hr hsv hb hw =>
          have h1 := hserve cmd
          rw [hsv] at h1
          exact hothers _ _ h1.1 (by simp)
        | writeCut cmd rest resp s' cur' bytes n hr hsv hb hw =>
          have h1 := hserve cmd
          rw [hsv] at h1
          exact hothers _ _ h1.1 (by simp)
        | servePanic cmd rest hr hsv => exact hothers _ _ (hserve cmd).1 (by simp)
  · have hstay := C31_untouched env p s e c hact
    constructor
    · intro ho
      exact absurd ⟨x, by rw [hstay]; exact hx, hrun, hcur⟩ (ho.2 c)
    · rintro (rfl | ⟨wr, rfl, _⟩) <;> exact absurd rfl hact

/-- Samples: connection 0 imports "1-1" and then "1-2": "1-1" is lost, although nobody has it. -/
def twiceEvents : List (Event Nat) :=
  [.connect 0 ⟨wireCmd (.reqImport 0 busA) ++ wireCmd (.reqImport 0 busB), .unexpectedEof⟩,
   .iterate 0 .full]

example : Fresh Samples.env dev (Sys.init [devA, devB] Samples.world) twiceEvents ∧
    (((Sys.init [devA, devB] Samples.world).run Samples.env dev twiceEvents).conns 0).map
      (fun x => (x.status, x.current, readCommand dev x.input))
      = some (.running, some devA.busId, .ok (.reqImport 0 busB, ⟨[], .unexpectedEof⟩)) :=
  ⟨⟨trivial, trivial, trivial⟩, by decide⟩

/-- ... even after the connection has closed in an orderly way: only "1-2" came back. -/
theorem C53_example :
    let t := (Sys.init [devA, devB] Samples.world).run Samples.env dev
      (twiceEvents ++ [.iterate 0 .full, .iterate 0 .full])
    t.shared.available.map Device.busId = [devB.busId] ∧
    t.shared.used.map Prod.fst = [devA.busId] ∧
    (t.conns 0).map (·.status) = some .closed := by decide

end Usbip
