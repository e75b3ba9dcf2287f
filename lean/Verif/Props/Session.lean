import Verif.Lemmas.Session
import Verif.Lemmas.Enumerate
import Verif.Props.Conversation
import Verif.Props.Descriptors
import Verif.Props.Codec
/-!
# Whose answers a client gets, and what it learns by enumerating: C71, C72
-/

namespace Usbip
open Spec Samples

/-! ## C71 -/

theorem talk_run {σ} (env : Env σ) (p : Profile) (es : List (Event σ)) : ∀ (s : Sys σ),
    Inv s.shared s.conns → Fresh env p s es → (∀ c x, s.conns c = some x → Talk env p s.shared x) →
    ∀ c x, (s.run env p es).conns c = some x → Talk env p (s.run env p es).shared x := by
  induction es with
  | nil => intro s _ _ h; exact h
  | cons e es ih =>
    intro s hi hf h
    exact ih _ (Inv.step env p s hi e hf.1) hf.2 (talk_step env p s hi h e hf.1)

/-- C71: in every history in which bus ids stay unique, on every connection, every submit that was
answered was answered by the very device named in the last import reply on that connection, in the
state it was added with (its handlers' state apart); and while the connection is live that device is
the one recorded as imported under its bus id. -/
theorem C71_session {σ} (env : Env σ) (p : Profile) (devices : List Device) (w : World σ)
    (es : List (Event σ)) (hd : (devices.map Device.busId).Nodup)
    (hf : Fresh env p (Sys.init devices w) es) (c : Nat) (x : Conn)
    (hx : ((Sys.init devices w).run env p es).conns c = some x) :
    Coherent env p x.served ∧
    (x.status = .running → x.current = (holding x.served).map Device.busId ∧
      ∀ d, holding x.served = some d →
        amGet d.busId ((Sys.init devices w).run env p es).shared.used = some d) := by
  have h := talk_run env p es _ (Inv.init devices w hd) hf
    (by intro c x hx; simp [Sys.init] at hx) c x hx
  exact ⟨h.coherent, h.live⟩

/-! ## C32 over histories -/

theorem current_step {σ} (env : Env σ) (p : Profile) (s : Sys σ)
    (h : ∀ c x, s.conns c = some x → x.status = .running → x.current = (holding x.served).map Device.busId) (e : Event σ) :
    ∀ c x, (s.step env p e).conns c = some x → x.status = .running → x.current = (holding x.served).map Device.busId := by
  have set : ∀ c' y, (y.status = .running → y.current = (holding y.served).map Device.busId) →
      ∀ c x, setConn s.conns c' y c = some x → x.status = .running → x.current = (holding x.served).map Device.busId := by
    intro c' y hy c x hx
    unfold setConn at hx
    split at hx
    · cases hx; exact hy
    · exact h c x hx
  cases e with
  | connect c' input =>
    unfold Sys.step
    cases hc : s.conns c' with
    | some _ => simpa only [hc] using h
    | none => simpa only [hc] using set c' _ (fun _ => rfl)
  | iterate c' w =>
    unfold Sys.step
    cases hc : s.conns c' with
    | none => simpa only [hc] using h
    | some x =>
      by_cases hr : x.status = .running
      · simp only [hc, hr, if_true]
        refine set c' _ ?_
        have hcur := h c' x hc hr
        unfold Conn.iterate
        cases hcmd : readCommand p x.input with
        | ok v =>
          obtain ⟨cmd, rest⟩ := v
          dsimp only
          rcases hs : s.shared.serve env p x.current cmd with ⟨o, s', cur'⟩
          cases o with
          | ok resp =>
            dsimp only
            cases hb : resp.toBytes p with
            | ok bytes =>
              cases w with
              | full =>
                intro _
                dsimp only
                rw [holding_snoc]
                cases cmd with
                | reqDevlist st => simp only [Shared.serve, Prod.mk.injEq, Outcome.ok.injEq] at hs; obtain ⟨rfl, _, rfl⟩ := hs; exact hcur
                | unlink hd n => simp only [Shared.serve, Prod.mk.injEq, Outcome.ok.injEq] at hs; obtain ⟨rfl, _, rfl⟩ := hs; exact hcur
                | reqImport st id =>
                  simp only [Shared.serve, Shared.import] at hs
                  split at hs
                  · simp only [Prod.mk.injEq, Outcome.ok.injEq] at hs; obtain ⟨rfl, _, rfl⟩ := hs; rfl
                  · simp only [Prod.mk.injEq, Outcome.ok.injEq] at hs; obtain ⟨rfl, _, rfl⟩ := hs; rfl
                | submit hd a b c d e f g i =>
                  simp only [Shared.serve] at hs
                  split at hs
                  · simp at hs
                  · simp only [Prod.mk.injEq] at hs; obtain ⟨_, _, rfl⟩ := hs; exact hcur
              | fail sent e => intro h; cases h
              | cut sent => intro h; cases h
            | err e => intro h; cases h
            | panic => intro h; cases h
            | diverge => intro h; cases h
          | err e => intro h; cases h
          | panic => intro h; cases h
          | diverge => intro h; cases h
        | err e =>
          dsimp only
          split
          · intro h; dsimp only at h; split at h <;> cases h
          · intro h; cases h
        | panic => intro h; cases h
        | diverge => intro h; cases h
      · simpa only [hc, hr, if_false] using h
  | cancel c' =>
    unfold Sys.step
    cases hc : s.conns c' with
    | none => simpa only [hc] using h
    | some x =>
      by_cases hr : x.status = .running
      · simp only [hc, hr, if_true]
        exact set c' _ (fun h => by cases h)
      · simpa only [hc, hr, if_false] using h
  | addDevice d => exact h
  | removeDevice id => exact h
  | user f crash => exact h

theorem current_run {σ} (env : Env σ) (p : Profile) (es : List (Event σ)) : ∀ (s : Sys σ),
    (∀ c x, s.conns c = some x → x.status = .running → x.current = (holding x.served).map Device.busId) →
    ∀ c x, (s.run env p es).conns c = some x → x.status = .running → x.current = (holding x.served).map Device.busId := by
  induction es with
  | nil => intro s h; exact h
  | cons e es ih => intro s h; exact ih _ (current_step env p s h e)

/-- C32: after any history, on a connection whose client has not been given a device (it has sent no import request,
or the last one failed), a submit ends the connection's task; nothing else on the server changes, nothing is
sent, and no handler is used. -/
theorem C32_history {σ} (env : Env σ) (p : Profile) (devices : List Device) (w : World σ) (es : List (Event σ))
    (c : Nat) (x : Conn) (hx : ((Sys.init devices w).run env p es).conns c = some x) (hr : x.status = .running)
    (hno : holding x.served = none) (h : Header) (a b l d e : UInt32) (f g i : Bytes) (rest : Stream)
    (hc : readCommand p x.input = .ok (.submit h a b l d e f g i, rest)) (wr : WriteRes) :
    ((Sys.init devices w).run env p es).step env p (.iterate c wr) =
      { (Sys.init devices w).run env p es with
        conns := setConn ((Sys.init devices w).run env p es).conns c { x with input := rest, status := .panicked } } := by
  have hcur := current_run env p es (Sys.init devices w) (fun c x hx => by simp [Sys.init] at hx) c x hx hr
  rw [hno] at hcur
  have := C32_no_device env p ((Sys.init devices w).run env p es).shared x rest h a b l d e f g i wr hc
    (fun id hid => by rw [hcur] at hid; cases hid)
  simp only [Sys.step, hx, hr, if_true, this]

/-- C32_history for a client whose import failed (there is no such device), and then submits. -/
example : ∃ x, ((Sys.init [devA] adderWorld).run adderEnv dev
      [.connect 0 ⟨wireCmd (.reqImport 0 busB) ++ wireCmd cmdGetDesc, .unexpectedEof⟩, .iterate 0 .full]).conns 0 = some x ∧
    x.status = .running ∧ x.served.length = 1 ∧ holding x.served = none ∧
    readCommand dev x.input = .ok (cmdGetDesc, ⟨[], .unexpectedEof⟩) := by
  refine ⟨_, rfl, ?_⟩
  decide +kernel

/-- What has been given to the server. -/
def Given {σ} (devices : List Device) (es : List (Event σ)) (d : Device) : Prop :=
  d ∈ devices ∨ .addDevice d ∈ es

/-- C71: a device named in an import reply was given to the server, exactly as named. -/
theorem C71_named {σ} (env : Env σ) (p : Profile) (devices : List Device) (w : World σ)
    (es : List (Event σ)) (hd : (devices.map Device.busId).Nodup)
    (hf : Fresh env p (Sys.init devices w) es) (c : Nat) (x : Conn)
    (hx : ((Sys.init devices w).run env p es).conns c = some x) (cmd : Cmd) (st : UInt32) (d : Device)
    (he : (cmd, .repImport st (some d)) ∈ x.served) : Given devices es d := by
  have gen : ∀ (es : List (Event σ)) (s : Sys σ) (G : Device → Prop), Inv s.shared s.conns →
      Fresh env p s es → (∀ d, .addDevice d ∈ es → G d) → (∀ d ∈ onServer s.shared, G d) →
      (∀ c x, s.conns c = some x → ∀ cmd st d, (cmd, Resp.repImport st (some d)) ∈ x.served → G d) →
      ∀ c x, (s.run env p es).conns c = some x → ∀ cmd st d, (cmd, Resp.repImport st (some d)) ∈ x.served → G d := by
    intro es
    induction es with
    | nil => intro s G _ _ _ _ h; exact h
    | cons e es ih =>
      intro s G hi hf hg hs h
      refine ih (s.step env p e) G (Inv.step env p s hi e hf.1) hf.2 (fun d hm => hg d (by simp [hm])) ?_ ?_
      · intro d hm
        rcases step_onServer env p s hi e d hm with h1 | rfl
        · exact hs d h1
        · exact hg d (by simp)
      · intro c x hx
        cases e with
        | connect c' input =>
          cases hy : s.conns c' with
          | some y => simp only [Sys.step, hy] at hx; exact h c x hx
          | none =>
            simp only [Sys.step, hy, setConn] at hx
            split at hx
            · simp only [Option.some.injEq] at hx
              subst hx
              intro cmd st d hm
              simp [Conn.new] at hm
            · exact h c x hx
        | iterate c' wr =>
          cases hy : s.conns c' with
          | none => simp only [Sys.step, hy] at hx; exact h c x hx
          | some y =>
            by_cases hyr : y.status = .running
            · simp only [Sys.step, hy, hyr, if_true, setConn] at hx
              split at hx
              · simp only [Option.some.injEq] at hx
                subst hx
                have hres := iterate_res env p s.shared y wr
                generalize (y.iterate env p s.shared wr).1 = s' at hres
                generalize (y.iterate env p s.shared wr).2 = x' at hres ⊢
                cases hres with
                | answered cmd rest resp s' cur' bytes hr' hs' hb hw =>
                  intro cmd' st d hm
                  rcases List.mem_append.mp hm with hm | hm
                  · exact h c' y hy cmd' st d hm
                  · simp only [List.mem_singleton, Prod.mk.injEq] at hm
                    obtain ⟨rfl, rfl⟩ := hm
                    have ha := serve_answers env p s.shared y.current cmd' _ (by rw [hs'])
                    cases cmd' with
                    | reqDevlist st => obtain ⟨ds, hds⟩ := ha; simp at hds
                    | unlink hd n => simp [Answers] at ha
                    | submit => simp [Answers] at ha
                    | reqImport st b =>
                      simp only [Shared.serve, Shared.import] at hs'
                      cases ht : takeFirst (busidCompare b) s.shared.available with
                      | none => rw [ht] at hs'; simp [opRepImportFail] at hs'
                      | some q =>
                        obtain ⟨dev, rst⟩ := q
                        rw [ht] at hs'
                        simp only [opRepImportSuccess, Prod.mk.injEq, Outcome.ok.injEq, Resp.repImport.injEq,
                          Option.some.injEq] at hs'
                        obtain ⟨⟨_, rfl⟩, _⟩ := hs'
                        obtain ⟨l1, l2, hl, _⟩ := takeFirst_some.mp ht
                        apply hs
                        unfold onServer
                        rw [hl]; simp
                | done e s' hr hrel => exact h c' y hy
                | missing e hr hrel => exact h c' y hy
                | readPanic hr => exact h c' y hy
                | writeFailed cmd rest resp s' cur' bytes n e hr hs hb hw => exact h c' y hy
                | writeCut cmd rest resp s' cur' bytes n hr hs hb hw => exact h c' y hy
                | servePanic cmd rest hr hs => exact h c' y hy
              · exact h c x hx
            · simp only [Sys.step, hy, hyr, if_false] at hx
              exact h c x hx
        | cancel c' =>
          cases hy : s.conns c' with
          | none => simp only [Sys.step, hy] at hx; exact h c x hx
          | some y =>
            by_cases hyr : y.status = .running
            · simp only [Sys.step, hy, hyr, if_true, setConn] at hx
              split at hx
              · simp only [Option.some.injEq] at hx
                subst hx
                exact h c' y hy
              · exact h c x hx
            · simp only [Sys.step, hy, hyr, if_false] at hx
              exact h c x hx
        | addDevice d => exact h c x hx
        | removeDevice id => exact h c x hx
        | user f => exact h c x hx
  exact gen es _ (Given devices es) (Inv.init devices w hd) hf (fun d h => .inr h)
    (fun d h => .inl (by simpa [onServer, Sys.init, Shared.newSimulated] using h))
    (by intro c x hx; simp [Sys.init] at hx) c x hx cmd st d he

/-- Not vacuous: a client imports "1-1", asks for a string (it has number 5), imports "1-2", and
asks for the same; while another client, importing "1-1" too, is refused. -/
example :
    let ask (n : UInt32) : Cmd := .submit ⟨1, n, 0, 1, 0⟩ 0 255 0 0 0 [0x80, 6, 5, 3, 0, 0, 255, 0] [] []
    let es : List (Event Nat) :=
      [.connect 0 ⟨(([.reqImport 0 busA, ask 1, .reqImport 0 busB, ask 2] : List Cmd).flatMap wireCmd), .unexpectedEof⟩,
       .connect 1 ⟨wireCmd (.reqImport 0 busA), .unexpectedEof⟩, .iterate 0 .full, .iterate 1 .full,
       .iterate 0 .full, .iterate 0 .full, .iterate 0 .full]
    let devB' : Device := { devB with deviceHandler := none, stringPool := fun _ => some ['y', 'o'] }
    let s := (Sys.init [devA, devB'] world).run Samples.env dev es
    Fresh Samples.env dev (Sys.init [devA, devB'] world) es ∧
    (s.conns 0).map (fun x => (x.served.length, (holding x.served).map Device.busId, x.current, x.status)) =
      some (4, some [49, 45, 50], some [49, 45, 50], .running) ∧
    (s.conns 0).map (fun x => x.served.map (fun e => match e.2 with
      | .repImport _ d => d.elim [] Device.busId
      | .retSubmit _ _ _ _ _ _ b _ => b
      | _ => [])) = some [[49, 45, 49], [6, 3, 104, 0, 105, 0], [49, 45, 50], [6, 3, 121, 0, 111, 0]] := by
  exact ⟨⟨trivial, trivial, trivial, trivial, trivial, trivial, trivial, trivial⟩, by decide +kernel, by decide +kernel⟩

end Usbip
