import Verif.Props.Server
/-!
# What a connection has sent and received: C30, C33 (second half), C48
-/

namespace Usbip
open Spec Samples

theorem readMany_snoc (p : Profile) (n : Nat) : ∀ (s mid rest : Stream) (cs : List Cmd) (c : Cmd),
    readMany p n s = .ok (cs, mid) → readCommand p mid = .ok (c, rest) →
    readMany p (n + 1) s = .ok (cs ++ [c], rest) := by
  induction n with
  | zero =>
    intro s mid rest cs c h1 h2
    simp only [readMany, Outcome.ok.injEq, Prod.mk.injEq] at h1
    obtain ⟨rfl, rfl⟩ := h1
    simp only [readMany]
    rw [h2]; rfl
  | succ n ih =>
    intro s mid rest cs c h1 h2
    rw [readMany, Outcome.bind_eq_ok] at h1
    obtain ⟨⟨c', s'⟩, hc', h1⟩ := h1
    rw [Outcome.bind_eq_ok] at h1
    obtain ⟨⟨cs', s''⟩, hcs', h1⟩ := h1
    simp only [Outcome.pure_eq, Outcome.ok.injEq, Prod.mk.injEq] at h1
    obtain ⟨rfl, rfl⟩ := h1
    rw [readMany, hc', Outcome.bind_ok]
    dsimp only
    rw [ih s' s'' rest cs' c hcs' h2]
    rfl

theorem conversation_new (p : Profile) (input : Stream) :
    Conversation p input (Conn.new input) [] input [] :=
  ⟨rfl, by simp, rfl, fun _ => ⟨rfl, rfl⟩, by simp, rfl⟩

theorem conversation_iterate {σ} (env : Env σ) (p : Profile) (s : Shared σ) (x : Conn) (w : WriteRes)
    (input0 : Stream) (log mid part) (h : Conversation p input0 x log mid part)
    (hrun : x.status = .running) :
    ∃ log mid part, Conversation p input0 (x.iterate env p s w).2 log mid part := by
  obtain ⟨hpart, hmid⟩ := h.live hrun
  have hres := iterate_res env p s x w
  generalize (x.iterate env p s w).1 = s' at hres
  generalize (x.iterate env p s w).2 = x' at hres ⊢
  cases hres with
  | done e s' hr hrel =>
    refine ⟨log, mid, part, h.commands, h.replies, h.sent, ?_, ?_, h.logged⟩
    · intro hst
      dsimp only at hst
      split at hst <;> simp at hst
    · intro hp; exact absurd hpart hp
  | missing e hr hrel =>
    exact ⟨log, mid, part, h.commands, h.replies, h.sent, by simp, fun hp => absurd hpart hp, h.logged⟩
  | readPanic hr =>
    exact ⟨log, mid, part, h.commands, h.replies, h.sent, by simp, fun hp => absurd hpart hp, h.logged⟩
  | answered cmd rest resp s' cur' bytes hr hs hb hw =>
    have ha := serve_answers env p s x.current cmd resp (by rw [hs])
    refine ⟨log ++ [(cmd, resp, bytes)], rest, [], ?_, ?_, ?_, fun _ => ⟨rfl, rfl⟩, by simp, by simp [h.logged]⟩
    · rw [List.length_append, List.length_singleton, List.map_append]
      exact readMany_snoc p _ _ mid rest _ cmd h.commands (by rw [hmid]; exact hr)
    · intro e he
      rcases List.mem_append.mp he with he | he
      · exact h.replies e he
      · simp only [List.mem_singleton] at he
        subst he
        exact ⟨ha, hb⟩
    · simp [h.sent, hpart]
  | writeFailed cmd rest resp s' cur' bytes n e hr hs hb hw =>
    have ha := serve_answers env p s x.current cmd resp (by rw [hs])
    refine ⟨log, mid, bytes.take n, h.commands, h.replies, ?_, by simp, ?_, h.logged⟩
    · simp [h.sent, hpart]
    · intro _
      exact ⟨cmd, resp, bytes, by rw [hmid]; exact hr, ha, hb, List.take_prefix _ _⟩
  | writeCut cmd rest resp s' cur' bytes n hr hs hb hw =>
    have ha := serve_answers env p s x.current cmd resp (by rw [hs])
    refine ⟨log, mid, bytes.take n, h.commands, h.replies, ?_, by simp, ?_, h.logged⟩
    · simp [h.sent, hpart]
    · intro _
      exact ⟨cmd, resp, bytes, by rw [hmid]; exact hr, ha, hb, List.take_prefix _ _⟩
  | servePanic cmd rest hr hs =>
    exact ⟨log, mid, part, h.commands, h.replies, h.sent, by simp, fun hp => absurd hpart hp, h.logged⟩

/-- C30: in every history, for every connection ever made (on which the client sends `input0`),
there is a log of the commands read, in order, each with exactly one reply of its kind, and the
bytes sent are exactly these replies' bytes in that order.  While the connection is live nothing
else has been sent or taken off the input, so each command is answered before the next is read; on
a connection that failed while sending, a beginning of the next reply may follow. -/
theorem C30_one_reply_each {σ} (env : Env σ) (p : Profile) (devices : List Device) (w : World σ)
    (es : List (Event σ)) (c : Nat) (x : Conn)
    (hx : ((Sys.init devices w).run env p es).conns c = some x) :
    ∃ input0, .connect c input0 ∈ es ∧ ∃ log mid part, Conversation p input0 x log mid part := by
  have gen : ∀ (es : List (Event σ)) (s : Sys σ) (past : List (Event σ)),
      (∀ c x, s.conns c = some x → ∃ input0, .connect c input0 ∈ past ∧
        ∃ log mid part, Conversation p input0 x log mid part) →
      ∀ c x, (s.run env p es).conns c = some x → ∃ input0, .connect c input0 ∈ past ++ es ∧
        ∃ log mid part, Conversation p input0 x log mid part := by
    intro es
    induction es with
    | nil => intro s past h c x hx; rw [List.append_nil]; exact h c x hx
    | cons e es ih =>
      intro s past h c x hx
      have hrun : s.run env p (e :: es) = (s.step env p e).run env p es := rfl
      rw [hrun] at hx
      have := ih (s.step env p e) (past ++ [e]) ?_ c x hx
      · simpa using this
      · have hkeep : ∀ c x, s.conns c = some x → ∃ input0, .connect c input0 ∈ past ++ [e] ∧
            ∃ log mid part, Conversation p input0 x log mid part := by
          intro c x hx
          obtain ⟨i, hi, hc⟩ := h c x hx
          exact ⟨i, by simp [hi], hc⟩
        intro c x hx
        cases e with
        | connect c' input =>
          cases hy : s.conns c' with
          | some y => simp only [Sys.step, hy] at hx; exact hkeep c x hx
          | none =>
            simp only [Sys.step, hy, setConn] at hx
            split at hx
            · rename_i hcc
              simp only [Option.some.injEq] at hx
              subst hx; subst hcc
              exact ⟨input, by simp, [], input, [], conversation_new p input⟩
            · exact hkeep c x hx
        | iterate c' wr =>
          cases hy : s.conns c' with
          | none => simp only [Sys.step, hy] at hx; exact hkeep c x hx
          | some y =>
            by_cases hyr : y.status = .running
            · simp only [Sys.step, hy, hyr, if_true, setConn] at hx
              split at hx
              · rename_i hcc
                simp only [Option.some.injEq] at hx
                subst hx; subst hcc
                obtain ⟨i, hi, log, mid, part, hc⟩ := hkeep c y hy
                exact ⟨i, hi, conversation_iterate env p s.shared y wr i log mid part hc hyr⟩
              · exact hkeep c x hx
            · simp only [Sys.step, hy, hyr, if_false] at hx
              exact hkeep c x hx
        | cancel c' =>
          cases hy : s.conns c' with
          | none => simp only [Sys.step, hy] at hx; exact hkeep c x hx
          | some y =>
            by_cases hyr : y.status = .running
            · simp only [Sys.step, hy, hyr, if_true, setConn] at hx
              split at hx
              · rename_i hcc
                simp only [Option.some.injEq] at hx
                subst hx; subst hcc
                obtain ⟨i, hi, log, mid, part, hc⟩ := hkeep c y hy
                exact ⟨i, hi, log, mid, part, hc.commands, hc.replies, hc.sent, by simp,
                  fun hp => absurd (hc.live hyr).1 hp, hc.logged⟩
              · exact hkeep c x hx
            · simp only [Sys.step, hy, hyr, if_false] at hx
              exact hkeep c x hx
        | addDevice d => exact hkeep c x hx
        | removeDevice id => exact hkeep c x hx
        | user f => exact hkeep c x hx
  have := gen es (Sys.init devices w) [] (by intro c x hx; simp [Sys.init] at hx) c x hx
  simpa using this

/-- C33, second half: when an unlink is about to be read on a live connection, every command read
before it, in particular every submit it could refer to, has had its complete reply sent. -/
theorem C33_all_answered {σ} (env : Env σ) (p : Profile) (devices : List Device) (w : World σ)
    (es : List (Event σ)) (c : Nat) (x : Conn) (h : Header) (n : UInt32) (rest : Stream)
    (hx : ((Sys.init devices w).run env p es).conns c = some x) (hrun : x.status = .running)
    (hr : readCommand p x.input = .ok (.unlink h n, rest)) :
    ∃ (input0 : Stream) (log : List (Cmd × Resp × Bytes)), .connect c input0 ∈ es ∧
      readMany p (log.length + 1) input0 = .ok (log.map (·.1) ++ [.unlink h n], rest) ∧
      (∀ e ∈ log, Answers e.1 e.2.1 ∧ e.2.1.toBytes p = .ok e.2.2) ∧
      x.output = log.flatMap (·.2.2) := by
  obtain ⟨i, hi, log, mid, part, hc⟩ := C30_one_reply_each env p devices w es c x hx
  obtain ⟨hp, hm⟩ := hc.live hrun
  refine ⟨i, log, hi, ?_, hc.replies, ?_⟩
  · exact readMany_snoc p _ _ mid rest _ _ hc.commands (by rw [hm]; exact hr)
  · rw [hc.sent, hp, List.append_nil]

/-- A history: import of "1-1", a GET_DESCRIPTOR answered, an unlink waiting. -/
def talkEvents : List (Event Nat) :=
  [.connect 0 ⟨wireCmd (.reqImport 0 busA) ++ wireCmd cmdGetDesc ++ wireCmd cmdUnlink, .unexpectedEof⟩,
   .iterate 0 .full, .iterate 0 .full]

set_option maxRecDepth 100000 in
example : (((Sys.init [devA, devB] Samples.world).run Samples.env dev talkEvents).conns 0).map
    (fun x => (x.status, x.served.map (·.1), x.output.length))
      = some (.running, [.reqImport 0 busA, cmdGetDesc], 320 + 66) := by decide

set_option maxRecDepth 100000 in
example : (((Sys.init [devA, devB] Samples.world).run Samples.env dev talkEvents).conns 0).map
    (fun x => readCommand dev x.input) = some (.ok (cmdUnlink, ⟨[], .unexpectedEof⟩)) := by decide

/-! ## C48 -/

theorem decodeAll_log {p : Profile} (log : List (Cmd × Resp × Bytes)) (rest : Bytes)
    (hr : ∀ e ∈ log, Answers e.1 e.2.1 ∧ e.2.1.toBytes p = .ok e.2.2)
    (hz : ∀ e ∈ log, Sized e.2.1) (hm : ∀ e ∈ log, NoOutData e.2.1) :
    decodeAll (log.map (·.1)) (log.flatMap (·.2.2) ++ rest)
      = some (log.map (fun e => replyInfo e.2.1), rest) := by
  induction log with
  | nil => rfl
  | cons e log ih =>
    obtain ⟨cmd, r, bs⟩ := e
    have ih := ih (fun e he => hr e (by simp [he])) (fun e he => hz e (by simp [he]))
      (fun e he => hm e (by simp [he]))
    have h1 := hr (cmd, r, bs) (by simp)
    have h2 := hz (cmd, r, bs) (by simp)
    have h3 := hm (cmd, r, bs) (by simp)
    dsimp only at h1 h2 h3
    have hrep := representable_of_answers h1.1 h2 h3
    have hdec : ∀ more, decodeReply cmd (bs ++ more) = some (replyInfo r, more) := by
      intro more
      have hb := decodeReply_bytes r bs more h1.2 hrep
      cases cmd with
      | reqDevlist st => obtain ⟨ds, rfl⟩ := h1.1; exact hb
      | reqImport st b => rcases h1.1 with ⟨d, rfl⟩ | rfl <;> exact hb
      | submit h a b c d e f g i => rcases h1.1 with ⟨d, rfl⟩ | rfl <;> exact hb
      | unlink h n => cases h1.1; exact hb
    simp only [List.map_cons, List.flatMap_cons, List.append_assoc, decodeAll]
    rw [hdec]
    simp only [Option.bind_eq_bind, Option.bind_some]
    rw [ih]
    rfl

/-- C48: in every history, for every connection on which no OUT transfer returned data and no
reply exceeded what the protocol's counters can express, a client that knows the commands it sent
decodes from what the server sent exactly the replies, in order, up to the possibly incomplete last
one on a connection that failed while sending. -/
theorem C48_conversation {σ} (env : Env σ) (p : Profile) (devices : List Device) (w : World σ)
    (es : List (Event σ)) (c : Nat) (x : Conn)
    (hx : ((Sys.init devices w).run env p es).conns c = some x) :
    ∃ input0 log mid part, .connect c input0 ∈ es ∧ Conversation p input0 x log mid part ∧
      ((∀ e ∈ log, Sized e.2.1) → (∀ e ∈ log, NoOutData e.2.1) →
        decodeAll (log.map (·.1)) x.output = some (log.map (fun e => replyInfo e.2.1), part)) := by
  obtain ⟨i, hi, log, mid, part, hc⟩ := C30_one_reply_each env p devices w es c x hx
  refine ⟨i, log, mid, part, hi, hc, ?_⟩
  intro hz hm
  rw [hc.sent]
  exact decodeAll_log log part hc.replies hz hm

/-- C48 in builds with debug assertions: the condition on OUT transfers is met by itself (the
connection would have panicked), only the sizes remain. -/
theorem C48_checked_build {σ} (env : Env σ) (p : Profile) (hp : p.debugAssertions = true)
    (devices : List Device) (w : World σ) (es : List (Event σ)) (c : Nat) (x : Conn)
    (hx : ((Sys.init devices w).run env p es).conns c = some x) :
    ∃ input0 log mid part, .connect c input0 ∈ es ∧ Conversation p input0 x log mid part ∧
      ((∀ e ∈ log, Sized e.2.1) →
        decodeAll (log.map (·.1)) x.output = some (log.map (fun e => replyInfo e.2.1), part)) := by
  obtain ⟨i, log, mid, part, hi, hc, hd⟩ := C48_conversation env p devices w es c x hx
  refine ⟨i, log, mid, part, hi, hc, fun hs => hd hs ?_⟩
  intro e he
  obtain ⟨h1, h2⟩ := hc.replies e he
  exact noOutData_checked hp h1 h2 (hs e he)

/-- Replies like those of the sample history meet the conditions. -/
example : Sized (opRepImportSuccess devA) ∧ NoOutData (opRepImportSuccess devA) ∧
    Sized (usbipRetSubmitSuccess ⟨3, 1, 65538, 1, 0⟩ 0 0 (List.replicate 18 0) []) ∧
    NoOutData (usbipRetSubmitSuccess ⟨3, 1, 65538, 1, 0⟩ 0 0 (List.replicate 18 0) []) := by
  refine ⟨trivial, trivial, ?_, Or.inl rfl⟩
  show (List.replicate 18 0).length < 2 ^ 32
  simp

/-- ... and without the condition on OUT transfers C48 fails: SET_CONFIGURATION with a non-zero
wLength in a release build puts a byte on the wire that the client takes for the beginning of the
next reply. -/
def outDataEvents : List (Event Nat) :=
  [.connect 0 ⟨wireCmd (.reqImport 0 busA)
      ++ wireCmd (.submit ⟨1, 1, 65538, 0, 0⟩ 0 0 0 0 0 [0, 9, 1, 0, 0, 0, 1, 0] [] [])
      ++ wireCmd cmdUnlink, .unexpectedEof⟩,
   .iterate 0 .full, .iterate 0 .full, .iterate 0 .full]

set_option maxRecDepth 100000 in
theorem C48_needs_no_out_data :
    (((Sys.init [devA] Samples.world).run Samples.env release outDataEvents).conns 0).map
      (fun x => (x.status, x.served.map (·.1), decodeAll (x.served.map (·.1)) x.output))
    = some (.running, [.reqImport 0 busA,
        .submit ⟨1, 1, 65538, 0, 0⟩ 0 0 0 0 0 [0, 9, 1, 0, 0, 0, 1, 0] [] [], cmdUnlink], none) := by
  decide

end Usbip
