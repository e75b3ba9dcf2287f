import Verif.Props.Requests
/-!
# Whole histories of the server: C22–C24, C30, C31, C47, C48, C53

A history is any list of events (connections arriving, loop iterations of connections in any
interleaving, aborted tasks, `add_device`/`remove_device` calls, changes of handler state) run
from a server with some devices and no connections.
-/

namespace Usbip
open Spec Samples

/-! ## C22 -/

/-- C22: at every moment of every history in which bus ids stay unique, no two live connections
have the same device. -/
theorem C22_exclusive {σ} (env : Env σ) (p : Profile) (devices : List Device) (w : World σ)
    (es : List (Event σ)) (hd : (devices.map Device.busId).Nodup)
    (hf : Fresh env p (Sys.init devices w) es) (c₁ c₂ : Nat) (id : Bytes)
    (h₁ : Holds ((Sys.init devices w).run env p es) c₁ id)
    (h₂ : Holds ((Sys.init devices w).run env p es) c₂ id) : c₁ = c₂ := by
  have hi := Inv.run env p es _ (Inv.init devices w hd) hf
  obtain ⟨x₁, e₁, r₁, q₁⟩ := h₁
  obtain ⟨x₂, e₂, r₂, q₂⟩ := h₂
  by_cases hne : c₁ = c₂
  · exact hne
  · exact absurd (hi.own c₁ c₂ x₁ x₂ id hne e₁ e₂ r₁ r₂ q₁ q₂) (by simp)

/-- C22: in such histories bus ids remain unique, so a bus id means one device; a device that a
live connection holds is recorded as imported under its bus id and is not available. -/
theorem C22_recorded {σ} (env : Env σ) (p : Profile) (devices : List Device) (w : World σ)
    (es : List (Event σ)) (hd : (devices.map Device.busId).Nodup)
    (hf : Fresh env p (Sys.init devices w) es) :
    Distinct ((Sys.init devices w).run env p es).shared ∧
    ∀ c id, Holds ((Sys.init devices w).run env p es) c id →
      (∃ d, d.busId = id ∧ amGet id ((Sys.init devices w).run env p es).shared.used = some d) ∧
      ∀ d ∈ ((Sys.init devices w).run env p es).shared.available, d.busId ≠ id := by
  have hi := Inv.run env p es _ (Inv.init devices w hd) hf
  refine ⟨hi.distinct, ?_⟩
  rintro c id ⟨x, e, r, q⟩
  have hm := hi.held c x id e r q
  obtain ⟨d, hg⟩ := amGet_of_mem hm
  refine ⟨⟨d, hi.keyed _ (amGet_mem hg), hg⟩, ?_⟩
  intro d' hd' he
  have hn := hi.nodup
  rw [List.nodup_append] at hn
  exact hn.2.2 id (List.mem_map.mpr ⟨d', hd', he⟩) id hm rfl

/-- A history: two clients connect and ask for "1-1"; the first gets it, the second does not. -/
def raceEvents : List (Event Nat) :=
  [.connect 0 ⟨wireCmd (.reqImport 0 busA), .unexpectedEof⟩,
   .connect 1 ⟨wireCmd (.reqImport 0 busA), .unexpectedEof⟩,
   .iterate 0 .full, .iterate 1 .full]

example : Fresh Samples.env dev (Sys.init [devA, devB] Samples.world) raceEvents ∧
    ([devA, devB].map Device.busId).Nodup := by
  refine ⟨⟨trivial, trivial, trivial, trivial, trivial⟩, by decide⟩

example : Holds ((Sys.init [devA, devB] Samples.world).run Samples.env release raceEvents) 0 devA.busId := by
  have h : (((Sys.init [devA, devB] Samples.world).run Samples.env release raceEvents).conns 0).map
      (fun x => (x.status, x.current)) = some (.running, some devA.busId) := by decide
  cases hc : ((Sys.init [devA, devB] Samples.world).run Samples.env release raceEvents).conns 0 with
  | none => rw [hc] at h; simp at h
  | some x =>
    rw [hc] at h
    simp only [Option.map_some, Option.some.injEq, Prod.mk.injEq] at h
    exact ⟨x, hc, h.1, h.2⟩

/-! ## C23 -/

theorem perm_filter_remove {l : List Device} {l1 l2 : List Device} {u : List Device} {d : Device}
    (hp : (l1 ++ d :: l2 ++ u).Perm l) (hn : ((l1 ++ d :: l2 ++ u).map Device.busId).Nodup) :
    (l1 ++ l2 ++ u).Perm (l.filter (fun x => x.busId ≠ d.busId)) := by
  have h1 : (l1 ++ d :: l2 ++ u).Perm (d :: (l1 ++ l2 ++ u)) := by
    simp only [List.append_assoc, List.cons_append]
    exact List.perm_middle
  have h2 := (h1.symm.trans hp).filter (fun x => decide (x.busId ≠ d.busId))
  rw [List.filter_cons_of_neg (by simp)] at h2
  have hn' := (h1.map Device.busId).nodup_iff.mp hn
  simp only [List.map_cons, List.nodup_cons] at hn'
  rw [List.filter_eq_self.mpr] at h2
  · exact h2
  · intro x hx
    simp only [ne_eq, decide_not, Bool.not_eq_true', decide_eq_false_iff_not]
    intro he
    exact hn'.1 (he ▸ List.mem_map.mpr ⟨x, hx, rfl⟩)

/-- C23, from any state of the bookkeeping. -/
theorem ledger_perm {σ} (env : Env σ) (p : Profile) (es : List (Event σ)) : ∀ (s : Sys σ) (l : List Device),
    Inv s.shared s.conns → Fresh env p s es → (onServer s.shared).Perm l →
    (onServer (s.run env p es).shared).Perm (ledger env p s l es) := by
  induction es with
  | nil => intro s l _ _ hl; exact hl
  | cons e es ih =>
    intro s l hi hf hl
    rw [ledger]
    have : s.run env p (e :: es) = (s.step env p e).run env p es := rfl
    rw [this]
    apply ih _ _ (Inv.step env p s hi e hf.1) hf.2
    cases e with
    | connect c input =>
      simp only [Sys.step]
      split <;> exact hl
    | iterate c w =>
      simp only [Sys.step]
      split
      · rename_i x hx
        split
        · exact ((iterate_Effect env p s.shared x w).lists hi.nodup hi.keyed).2.2.trans hl
        · exact hl
      · exact hl
    | cancel c =>
      simp only [Sys.step]
      split
      · split <;> exact hl
      · exact hl
    | addDevice d =>
      simp only [Sys.step, Shared.addDevice, onServer]
      have h1 : (s.shared.available ++ [d] ++ s.shared.used.map Prod.snd).Perm
          (s.shared.available ++ s.shared.used.map Prod.snd ++ [d]) := by
        simp only [List.append_assoc]
        exact List.Perm.append_left _ List.perm_append_comm
      exact h1.trans (hl.append_right [d])
    | removeDevice id =>
      simp only [Sys.step, ledgerStep]
      rcases removeDevice_cases s.shared id with ⟨d, l1, l2, hla, hd, hn, hr⟩ | ⟨_, _, hr⟩ | ⟨_, _, hr⟩
      · rw [hr]
        simp only
        have hdist := hi.distinct
        unfold Distinct onServer at hdist
        unfold onServer at hl ⊢
        rw [hla] at hl hdist
        rw [← hd]
        exact perm_filter_remove hl hdist
      · rw [hr]; exact hl
      · rw [hr]; exact hl
    | user f => exact hl

/-- C23: at every moment of every history in which bus ids stay unique, the devices on the server
(available and imported together) are exactly those given to it and not removed again: none lost,
none twice, none altered. -/
theorem C23_conserved {σ} (env : Env σ) (p : Profile) (devices : List Device) (w : World σ)
    (es : List (Event σ)) (hd : (devices.map Device.busId).Nodup)
    (hf : Fresh env p (Sys.init devices w) es) :
    (onServer ((Sys.init devices w).run env p es).shared).Perm
      (ledger env p (Sys.init devices w) devices es) :=
  ledger_perm env p es _ _ (Inv.init devices w hd) hf
    (by simp [onServer, Sys.init, Shared.newSimulated])

/-- A history with an addition, an import, a failing and a succeeding removal. -/
def ledgerEvents : List (Event Nat) :=
  [.addDevice devB, .connect 0 ⟨wireCmd (.reqImport 0 busA), .unexpectedEof⟩, .iterate 0 .full,
   .removeDevice devA.busId, .removeDevice devB.busId]

example : ([devA].map Device.busId).Nodup ∧
    Fresh Samples.env dev (Sys.init [devA] Samples.world) ledgerEvents ∧
    (ledger Samples.env dev (Sys.init [devA] Samples.world) [devA] ledgerEvents).map Device.busId
      = [devA.busId] := by
  refine ⟨by decide, ⟨?_, trivial, trivial, trivial, trivial, trivial⟩, by decide⟩
  intro x hx
  simp only [onServer, Sys.init, Shared.newSimulated, List.map_nil, List.append_nil,
    List.mem_singleton] at hx
  subst hx; decide

/-- C26 over histories: a device list request is answered with devices that were given to the server and
not removed, none of which any live connection has; and every other device given and not removed is
recorded as imported. -/
theorem C26_history {σ} (env : Env σ) (p : Profile) (devices : List Device) (w : World σ)
    (es : List (Event σ)) (hd : (devices.map Device.busId).Nodup)
    (hf : Fresh env p (Sys.init devices w) es) (c : Nat) (x : Conn) (st : UInt32) (rest : Stream) :
    let s := (Sys.init devices w).run env p es
    let given := ledger env p (Sys.init devices w) devices es
    s.conns c = some x → x.status = .running → readCommand p x.input = .ok (.reqDevlist st, rest) →
    (∀ d ∈ given, d.path.length ≤ 256 ∧ d.busId.length ≤ 32 ∧ d.interfaces.length ≤ 255) →
    given.length < 4294967296 →
    ∃ (bytes : Bytes) (listed : List Device) (served : List (Cmd × Resp)),
      (s.step env p (.iterate c .full)).conns c = some { x with
        input := rest, output := x.output ++ bytes, served := served } ∧
      (∀ more, decodeDevlist (bytes ++ more)
        = some (.devlist 0 (listed.map (fun d => (devInfo d, ifInfo d))), more)) ∧
      (∀ d ∈ listed, d ∈ given ∧ ∀ c' id, Holds s c' id → d.busId ≠ id) ∧
      (∀ d ∈ given, d ∉ listed → amGet d.busId s.shared.used = some d) := by
  intro s given hx hrun hr hfit hlen
  have hi : Inv s.shared s.conns := Inv.run env p es _ (Inv.init devices w hd) hf
  have hperm : (onServer s.shared).Perm given := C23_conserved env p devices w es hd hf
  have hsub : ∀ d ∈ s.shared.available, d ∈ given := fun d h =>
    hperm.mem_iff.mp (by unfold onServer; exact List.mem_append_left _ h)
  have hle : s.shared.available.length ≤ given.length := by
    rw [← hperm.length_eq]; unfold onServer; simp
  obtain ⟨bytes, served, hit, hdec⟩ := C26_lists_available env p s.shared x rest st hr
    (fun _ d h => ⟨(hfit d (hsub d h)).1, (hfit d (hsub d h)).2.1⟩) (by omega)
    (fun d h => (hfit d (hsub d h)).2.2)
  refine ⟨bytes, s.shared.available, served, ?_, hdec, ?_, ?_⟩
  · simp only [Sys.step, hx, if_pos hrun, hit, setConn, if_true]
  · intro d h
    refine ⟨hsub d h, ?_⟩
    intro c' id hh
    exact ((C22_recorded env p devices w es hd hf).2 c' id hh).2 d h
  · intro d h hnot
    have hm := hperm.mem_iff.mpr h
    unfold onServer at hm
    rcases List.mem_append.mp hm with hm | hm
    · exact absurd hm hnot
    · obtain ⟨e, he, rfl⟩ := List.mem_map.mp hm
      have hk := hi.keyed e he
      have hmem : e.1 ∈ s.shared.used.map Prod.fst := List.mem_map.mpr ⟨e, he, rfl⟩
      obtain ⟨d', hg⟩ := amGet_of_mem hmem
      have hnd := (List.nodup_append.mp hi.nodup).2.1
      have heq : e = (e.1, d') := nodup_map_inj Prod.fst _ hnd he (amGet_mem hg) rfl
      rw [hk, hg]
      rw [heq]

/-- Not vacuous: after `listEvents` one client has "1-1", another asks for the list. -/
def listEvents : List (Event Nat) :=
  [.connect 0 ⟨wireCmd (.reqImport 0 busA), .unexpectedEof⟩, .iterate 0 .full,
   .connect 1 ⟨wireCmd (.reqDevlist 0), .unexpectedEof⟩]

example : ([devA, devB].map Device.busId).Nodup ∧
    Fresh Samples.env dev (Sys.init [devA, devB] Samples.world) listEvents ∧
    (let s := (Sys.init [devA, devB] Samples.world).run Samples.env dev listEvents
     (s.conns 1).map (fun x => (x.status, readCommand dev x.input)) =
       some (.running, .ok (.reqDevlist 0, ⟨[], .unexpectedEof⟩)) ∧
     ((s.step Samples.env dev (.iterate 1 .full)).conns 1).bind (fun x =>
       (decodeDevlist x.output).map (fun q => match q.1 with
         | .devlist _ l => l.map (fun i => i.1.busId)
         | _ => [])) = some [[49, 45, 50]]) := by
  exact ⟨by decide, ⟨trivial, trivial, trivial, trivial⟩, by decide +kernel, by decide +kernel⟩

/-! ## C24 -/

/-- C24: in a history with unique bus ids, a live connection that has a device reads an error (end
of stream, socket error, malformed packet).  Then the connection is over; its device is in the
available list again (at the end), recorded as imported no more, and an import of its bus id by
anybody is granted and gives that very device. -/
theorem C24_given_back {σ} (env : Env σ) (p : Profile) (devices : List Device) (w : World σ)
    (es : List (Event σ)) (hd : (devices.map Device.busId).Nodup)
    (hf : Fresh env p (Sys.init devices w) es) (s : Sys σ) (hs : s = (Sys.init devices w).run env p es)
    (c : Nat) (x : Conn) (id : Bytes) (e : ErrKind) (wr : WriteRes)
    (hx : s.conns c = some x) (hrun : x.status = .running) (hcur : x.current = some id)
    (hr : readCommand p x.input = .err e) :
    ∃ d, amGet id s.shared.used = some d ∧ d.busId = id ∧
      (s.step env p (.iterate c wr)).shared.available = s.shared.available ++ [d] ∧
      amGet id (s.step env p (.iterate c wr)).shared.used = none ∧
      (∃ y, (s.step env p (.iterate c wr)).conns c = some y ∧
        y.status = (if e = .unexpectedEof then .closed else .failed e)) ∧
      (∀ cur st busid, BusField busid id →
        ((s.step env p (.iterate c wr)).shared.serve env p cur (.reqImport st busid)).1
          = .ok (.repImport 0 (some d)) ∧
        amGet id ((s.step env p (.iterate c wr)).shared.serve env p cur (.reqImport st busid)).2.1.used
          = some d) := by
  have hi : Inv s.shared s.conns := by rw [hs]; exact Inv.run env p es _ (Inv.init devices w hd) hf
  have hm := hi.held c x id hx hrun hcur
  obtain ⟨d, hg⟩ := amGet_of_mem hm
  have hid : d.busId = id := hi.keyed _ (amGet_mem hg)
  have hit : x.iterate env p s.shared wr =
      ({ s.shared with available := s.shared.available ++ [d], used := amErase id s.shared.used },
       { x with current := none, status := if e = .unexpectedEof then .closed else .failed e }) := by
    unfold Conn.iterate
    rw [hr]
    simp only [Shared.release, hcur, hg]
  have hstep : s.step env p (.iterate c wr) =
      { shared := { s.shared with available := s.shared.available ++ [d], used := amErase id s.shared.used }
        conns := setConn s.conns c { x with
          current := none, status := if e = .unexpectedEof then .closed else .failed e } } := by
    simp only [Sys.step, hx, hrun, if_true, hit]
  have hno : ∀ y ∈ s.shared.available, y.busId ≠ id := by
    intro y hy he
    have hn := hi.nodup
    rw [List.nodup_append] at hn
    exact hn.2.2 id (List.mem_map.mpr ⟨y, hy, he⟩) id hm rfl
  refine ⟨d, hg, hid, by rw [hstep], ?_, ?_, ?_⟩
  · rw [hstep, amGet_none]
    simp [amErase]
  · rw [hstep]
    exact ⟨{ x with current := none, status := if e = .unexpectedEof then .closed else .failed e },
      by simp [setConn], rfl⟩
  · intro cur st busid hbf
    rw [hstep]
    have hc := cstr_busField hbf
    have ht : takeFirst (busidCompare busid) (s.shared.available ++ [d]) = some (d, s.shared.available) := by
      rw [busidCompare_eq, hc]
      exact takeFirst_some.mpr ⟨s.shared.available, [], rfl, by simp, hid, hno⟩
    simp only [Shared.serve, Shared.import, ht]
    refine ⟨rfl, ?_⟩
    rw [hid]
    exact amGet_insert_self

/-- A history after which connection 0 has "1-1" and its client has closed the socket. -/
def closeEvents : List (Event Nat) :=
  [.connect 0 ⟨wireCmd (.reqImport 0 busA), .unexpectedEof⟩, .iterate 0 .full]

example : Fresh Samples.env dev (Sys.init [devA, devB] Samples.world) closeEvents ∧
    (((Sys.init [devA, devB] Samples.world).run Samples.env dev closeEvents).conns 0).map
      (fun x => (x.status, x.current, x.input)) = some (.running, some devA.busId, ⟨[], .unexpectedEof⟩) ∧
    (readCommand dev (⟨[], .unexpectedEof⟩ : Stream)) = .err .unexpectedEof ∧
    BusField busA devA.busId :=
  ⟨⟨trivial, trivial, trivial⟩, by decide, by decide, by decide, by decide, rfl⟩

/-- C24: if connections import only while they have nothing, and end while holding a device only
through a failed read, then a device is away only while a live connection has it. -/
theorem C24_no_loss {σ} (env : Env σ) (p : Profile) (devices : List Device) (w : World σ)
    (es : List (Event σ)) (hd : (devices.map Device.busId).Nodup)
    (hf : Fresh env p (Sys.init devices w) es) (ho : Orderly env p (Sys.init devices w) es)
    (id : Bytes) (d : Device)
    (hu : amGet id ((Sys.init devices w).run env p es).shared.used = some d) :
    ∃ c, Holds ((Sys.init devices w).run env p es) c id := by
  have gen : ∀ (es : List (Event σ)) (s : Sys σ), Inv s.shared s.conns → Fresh env p s es →
      Orderly env p s es → (∀ id, id ∈ s.shared.used.map Prod.fst → ∃ c, Holds s c id) →
      ∀ id, id ∈ (s.run env p es).shared.used.map Prod.fst → ∃ c, Holds (s.run env p es) c id := by
    intro es
    induction es with
    | nil => intro s _ _ _ h; exact h
    | cons e es ih =>
      intro s hi hf ho h
      have hrun : s.run env p (e :: es) = (s.step env p e).run env p es := rfl
      rw [hrun]
      refine ih _ (Inv.step env p s hi e hf.1) hf.2 ho.2.2 ?_
      intro id hid
      cases e with
      | connect c input =>
        cases hy : s.conns c with
        | some y =>
          simp only [Sys.step, hy] at hid ⊢
          exact h id hid
        | none =>
          simp only [Sys.step, hy] at hid ⊢
          obtain ⟨c', x, hx, hr, hc⟩ := h id hid
          refine ⟨c', x, ?_, hr, hc⟩
          have : c' ≠ c := by rintro rfl; rw [hy] at hx; simp at hx
          simp [setConn, this, hx]
      | cancel c =>
        cases hy : s.conns c with
        | none =>
          simp only [Sys.step, hy] at hid ⊢
          exact h id hid
        | some y =>
          by_cases hyr : y.status = .running
          · simp only [Sys.step, hy, hyr, if_true] at hid ⊢
            have hnone : y.current = none := ho.1 y hy hyr
            obtain ⟨c', x, hx, hr, hc⟩ := h id hid
            refine ⟨c', x, ?_, hr, hc⟩
            have : c' ≠ c := by
              rintro rfl
              rw [hy] at hx
              simp only [Option.some.injEq] at hx
              subst hx
              rw [hnone] at hc; simp at hc
            simp [setConn, this, hx]
          · simp only [Sys.step, hy, hyr, if_false] at hid ⊢
            exact h id hid
      | addDevice d => exact h id hid
      | removeDevice k =>
        simp only [Sys.step] at hid ⊢
        rw [(C28_remove s.shared k).2.2.2.1] at hid
        exact h id hid
      | user f => exact h id hid
      | iterate c wr =>
        cases hy : s.conns c with
        | none =>
          simp only [Sys.step, hy] at hid ⊢
          exact h id hid
        | some y =>
          by_cases hyr : y.status = .running
          · have hstep : s.step env p (.iterate c wr) =
                { shared := (y.iterate env p s.shared wr).1
                  conns := setConn s.conns c (y.iterate env p s.shared wr).2 } := by
              simp only [Sys.step, hy, hyr, if_true]
            have ho1 := ho.1 y
            have ho2 := ho.2.1 y
            rw [hstep] at hid ho1 ho2 ⊢
            simp only at hid ho1 ho2
            have hself : setConn s.conns c (y.iterate env p s.shared wr).2 c
                = some (y.iterate env p s.shared wr).2 := by simp [setConn]
            -- other holders keep holding
            have hother : ∀ id, (∃ c', c' ≠ c ∧ Holds s c' id) →
                ∃ c', Holds { shared := (y.iterate env p s.shared wr).1
                              conns := setConn s.conns c (y.iterate env p s.shared wr).2 } c' id := by
              rintro id ⟨c', hne, x, hx, hr, hc⟩
              exact ⟨c', x, by simp [setConn, hne, hx], hr, hc⟩
            have hres := iterate_res env p s.shared y wr
            have heff := iterate_Effect env p s.shared y wr
            generalize (y.iterate env p s.shared wr).1 = sh' at *
            generalize (y.iterate env p s.shared wr).2 = y' at *
            -- where does `id` come from
            cases hcy : y.current with
            | none =>
              -- the connection had nothing
              have hcases : id ∈ s.shared.used.map Prod.fst ∨ y'.current = some id := by
                rw [hcy] at heff
                generalize hyc : y'.current = cur' at heff ⊢
                cases heff with
                | keep ha hu => rw [hu] at hid; exact Or.inl hid
                | refuse ha hu => rw [hu] at hid; exact Or.inl hid
                | grant d l1 l2 h ha hu =>
                  rw [hu, amInsert, List.map_cons, List.mem_cons] at hid
                  rcases hid with hid | hid
                  · exact Or.inr (by rw [hid])
                  · rw [amErase_keys] at hid
                    exact Or.inl (List.mem_filter.mp hid).1
                | release id' d hc hg ha hu => simp at hc
              rcases hcases with hin | hmine
              · obtain ⟨c', x, hx, hr, hc⟩ := h id hin
                refine hother id ⟨c', ?_, x, hx, hr, hc⟩
                rintro rfl
                rw [hy] at hx
                simp only [Option.some.injEq] at hx
                subst hx
                rw [hcy] at hc; simp at hc
              · refine ⟨c, y', hself, ?_, hmine⟩
                by_cases hr' : y'.status = .running
                · exact hr'
                · have := ho2 hy hyr hcy y' hself hr'
                  rw [this] at hmine; simp at hmine
            | some k =>
              rcases ho1 k hy hyr hcy with ⟨e, hre⟩ | ⟨cmd, rest, hre, hni, z, hz, hzr⟩
              · -- failed read: the device went back
                have hback : id ∈ s.shared.used.map Prod.fst ∧ id ≠ k := by
                  cases hres with
                  | done e' s' hr' hrel =>
                    rw [hcy] at hrel
                    simp only [Shared.release] at hrel
                    split at hrel
                    · simp only [Option.some.injEq] at hrel
                      subst hrel
                      simp only [amErase_keys, List.mem_filter] at hid
                      exact ⟨hid.1, by simpa using hid.2⟩
                    · simp at hrel
                  | missing e' hr' hrel =>
                    have hm := hi.held c y k hy hyr hcy
                    obtain ⟨d, hg⟩ := amGet_of_mem hm
                    rw [hcy] at hrel
                    simp [Shared.release, hg] at hrel
                  | readPanic hr' => rw [hre] at hr'; simp at hr'
                  | answered cmd' rest' resp s' cur' bytes hr' hs hb hw => rw [hre] at hr'; simp at hr'
                  | writeFailed cmd' rest' resp s' cur' bytes n e' hr' hs hb hw =>
                    rw [hre] at hr'; simp at hr'
                  | writeCut cmd' rest' resp s' cur' bytes n hr' hs hb hw =>
                    rw [hre] at hr'; simp at hr'
                  | servePanic cmd' rest' hr' hs => rw [hre] at hr'; simp at hr'
                obtain ⟨c', x, hx, hr, hc⟩ := h id hback.1
                refine hother id ⟨c', ?_, x, hx, hr, hc⟩
                rintro rfl
                rw [hy] at hx
                simp only [Option.some.injEq] at hx
                subst hx
                rw [hcy] at hc
                simp only [Option.some.injEq] at hc
                exact hback.2 hc.symm
              · -- an ordinary command
                rw [hself] at hz
                simp only [Option.some.injEq] at hz
                subst hz
                have hsame : sh'.used = s.shared.used ∧ y'.current = y.current := by
                  have hl := serve_unchanged_lists env p s.shared y.current cmd hni
                  cases hres with
                  | done e' s' hr' hrel => rw [hre] at hr'; simp at hr'
                  | missing e' hr' hrel => simp at hzr
                  | readPanic hr' => simp at hzr
                  | answered cmd' rest' resp s' cur' bytes hr' hs hb hw =>
                    rw [hre] at hr'
                    simp only [Outcome.ok.injEq, Prod.mk.injEq] at hr'
                    obtain ⟨rfl, rfl⟩ := hr'
                    rw [hs] at hl
                    exact ⟨hl.2.1, hl.2.2⟩
                  | writeFailed cmd' rest' resp s' cur' bytes n e' hr' hs hb hw => simp at hzr
                  | writeCut cmd' rest' resp s' cur' bytes n hr' hs hb hw => simp at hzr
                  | servePanic cmd' rest' hr' hs => simp at hzr
                rw [hsame.1] at hid
                obtain ⟨c', x, hx, hr, hc⟩ := h id hid
                by_cases hcc : c' = c
                · subst hcc
                  rw [hy] at hx
                  simp only [Option.some.injEq] at hx
                  subst hx
                  exact ⟨c', y', hself, hzr, by rw [hsame.2]; exact hc⟩
                · exact hother id ⟨c', hcc, x, hx, hr, hc⟩
          · have hstep : s.step env p (.iterate c wr) = s := by
              simp only [Sys.step, hy, hyr, if_false]
            rw [hstep] at hid ⊢
            exact h id hid
  refine gen es _ (Inv.init devices w hd) hf ho ?_ id ?_
  · intro id hid; simp [Sys.init, Shared.newSimulated] at hid
  · exact List.mem_map.mpr ⟨_, amGet_mem hu, rfl⟩

/-- Decides `Orderly` on closed histories (used for the example only). -/
example : Orderly Samples.env dev (Sys.init [devA, devB] Samples.world) closeEvents := by
  refine ⟨trivial, trivial, ?_, ?_, trivial⟩
  · intro x id hx _ hc
    simp only [Sys.step, Sys.init, setConn, if_true, Option.some.injEq] at hx
    subst hx
    simp [Conn.new] at hc
  · intro x hx _ _ y hy hne
    exfalso
    have h : (((Sys.init [devA, devB] Samples.world).run Samples.env dev closeEvents).conns 0).map
      (fun x => x.status) = some .running := by decide
    have h' : ((Sys.init [devA, devB] Samples.world).run Samples.env dev closeEvents).conns 0 = some y := hy
    rw [h'] at h
    simp only [Option.map_some, Option.some.injEq] at h
    exact hne h

end Usbip
