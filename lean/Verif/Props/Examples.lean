import Verif.Lemmas.Examples
/-!
# The bundled handlers behind the server, and the example programs: C58, C59, C60
-/

namespace Usbip
open Spec Samples

/-! ## C58 -/

/-- C58: a server with any devices, one of whose handlers is a new keyboard, any other handlers, any
clients, any history: the polls of the keyboard are answered, over all connections, as the
specification says: each takes the next unread item of "each queued event pressed, then released",
or gets no data; the client receives exactly that if it asked in IN direction and its reply could
be sent, and never anything but the beginning of it. -/
theorem C58_replies {σ} (env : Env σ) (h : Nat) (p : Profile) (devices : List Device)
    (w : World (σ × Keyboard)) (hw : w.user.2 = Keyboard.new) (es : List (HostedEvent σ KeyReport)) :
    Pointwise (fun got want => got.data <+: want ∧
        (got.direction = 1 → got.write = .full → got.data = want ∧
          (got.bytes.drop 20).take 8 = [0, 0, 0, 0] ++ bigEndian 4 want.length))
      (keyboardReplies env h p (Sys.init devices w) es)
      (expected codeUp [] 0 (keyboardOps env h p (Sys.init devices w) es)) := by
  obtain ⟨_, h2, h3⟩ := run_observed keyboardObj Keyboard.push h env p es (Sys.init devices w)
  have hk : (Sys.init devices w).shared.world.user.2 = Keyboard.new := hw
  rw [hk] at h2
  have h4 := polls_carry _ Keyboard.new h3 h2
  rw [C36_polls] at h4
  refine pointwise_imp (pointwise_map h4) ?_
  intro r b _ hb hc
  refine ⟨hc.1, fun hd hwr => ?_⟩
  have := expected_small _ _ _ b hb
  have := hc.2 (.inl hd) hwr (by omega)
  exact ⟨this.1, this.2.2⟩

/-- C58, first in first out: if every poll was made in IN direction and every reply could be sent,
the non-empty reports the clients received are an initial part of "each event the application
queued pressed, then released": none lost, repeated or reordered, whichever clients polled. -/
theorem C58_fifo {σ} (env : Env σ) (h : Nat) (p : Profile) (devices : List Device)
    (w : World (σ × Keyboard)) (hw : w.user.2 = Keyboard.new) (es : List (HostedEvent σ KeyReport))
    (hall : ∀ r ∈ keyboardReplies env h p (Sys.init devices w) es, r.direction = 1 ∧ r.write = .full) :
    ∃ m, ((keyboardReplies env h p (Sys.init devices w) es).map Sent.data).filter (fun b => !b.isEmpty)
      = (script codeUp (typed es)).take m := by
  have h1 := C58_replies env h p devices w hw es
  have h2 : Pointwise (fun got want => Sent.data got = want)
      (keyboardReplies env h p (Sys.init devices w) es)
      (expected codeUp [] 0 (keyboardOps env h p (Sys.init devices w) es)) :=
    pointwise_imp h1 (fun r b hr _ hc => (hc.2 (hall r hr).1 (hall r hr).2).1)
  obtain ⟨m, hm⟩ := expected_prefix (keyboardOps env h p (Sys.init devices w) es) [] 0 (Nat.zero_le _)
  refine ⟨m, ?_⟩
  rw [pointwise_eq h2, hm, queued_typed]
  simp

/-- Import of bus id "0-0-0", then five polls of interrupt endpoint 0x81, by the client. -/
def pollBytes : Bytes :=
  [1, 17, 0x80, 3, 0, 0, 0, 0] ++ ([48, 45, 48, 45, 48] ++ List.replicate 27 0) ++
  (List.replicate 5 (be32 1 ++ be32 9 ++ be32 0 ++ be32 1 ++ be32 1 ++ be32 0 ++ be32 8 ++ be32 0
    ++ be32 0 ++ be32 10 ++ List.replicate 8 0)).flatten

/-- The keyboard of the example, handler number 0; two keys are typed while a client polls. -/
def keyboardHistory : List (HostedEvent Unit KeyReport) :=
  [.server (.connect 3 ⟨pollBytes, .unexpectedEof⟩), .app ⟨0, #v[4, 0, 0, 0, 0, 0]⟩, .server (.iterate 3 .full),
   .server (.iterate 3 .full), .app ⟨2, #v[5, 0, 0, 0, 0, 0]⟩, .server (.iterate 3 .full),
   .server (.iterate 3 .full), .server (.iterate 3 .full), .server (.iterate 3 .full)]

def devicesOf (d : Outcome Device) : List Device :=
  match d with
  | .ok d => [d]
  | _ => []

/-- The system at start of `examples/hid_keyboard.rs`. -/
def keyboardSys : Sys (Unit × Keyboard) :=
  Sys.init (devicesOf (exampleKeyboard dev)) (freshWorld Keyboard.new)

set_option maxRecDepth 100000 in
/-- Both keys arrive, pressed and released; the last poll finds nothing. -/
example : (keyboardReplies noHandlers 0 dev keyboardSys keyboardHistory).map Sent.data
    = [[0, 0, 4, 0, 0, 0, 0, 0], [0, 0, 0, 0, 0, 0], [2, 0, 5, 0, 0, 0, 0, 0], [0, 0, 0, 0, 0, 0], []] := by
  decide +kernel

example : ∀ r ∈ keyboardReplies noHandlers 0 dev keyboardSys keyboardHistory,
    r.direction = 1 ∧ r.write = .full := by
  decide +kernel

/-! ## C59 -/

/-- C59: a server with any devices, one of whose handlers is a new serial port, any other handlers,
any clients, any history in which no control or isochronous IN request reaches the port: if the
bulk IN requests said IN and their replies could be sent, the data of these replies, over all
connections in order, followed by what is still buffered, are exactly the bytes written. -/
theorem C59_exactly_once {σ} (env : Env σ) (h : Nat) (p : Profile) (devices : List Device)
    (w : World (σ × Cdc)) (hw : w.user.2 = Cdc.new) (es : List (HostedEvent σ Bytes))
    (hlen : (spoken es).length < 4294967296)
    (hep : ∀ r ∈ serialAll env h p (Sys.init devices w) es, r.ep.attributes.toNat = 2 ∨
      r.ep.attributes.toNat = 3 ∨ r.ep.address.toNat < 128)
    (hall : ∀ r ∈ serialReplies env h p (Sys.init devices w) es, r.direction = 1 ∧ r.write = .full) :
    (serialReplies env h p (Sys.init devices w) es).flatMap Sent.data
      ++ ((Sys.init devices w).run (hosting serialObj h env) p
          (es.map (HostedEvent.event Cdc.write))).shared.world.user.2.txBuffer = spoken es := by
  obtain ⟨h1, h2, h3⟩ := run_observed serialObj Cdc.write h env p es (Sys.init devices w)
  have hk : (Sys.init devices w).shared.world.user.2 = Cdc.new := hw
  rw [hk] at h1 h2
  have h4 := serial_carry _ Cdc.new h3 h2
  rw [serial_objRun, List.map_map] at h1
  have hw := written_spoken env h p es (Sys.init devices w)
  have hops : ∀ ep, COp.urb ep ∈ (observations (hosting serialObj h env) Cdc.write h p
      (Sys.init devices w) es).map (fun o => serialOp o.1) →
      ep.attributes.toNat = 2 ∨ ep.attributes.toNat = 3 ∨ ep.address.toNat < 128 := by
    intro ep he
    obtain ⟨o, ho, heq⟩ := List.mem_map.mp he
    have hs := h3 o ho
    rcases o with ⟨_ | ⟨ep', st⟩, _ | r⟩
    · simp [serialOp] at heq
    · exact hs.elim
    · exact hs.elim
    · simp only [serialOp, COp.urb.injEq] at heq
      subst heq
      have hs : r.ep = ep' := hs
      rw [← hs]
      exact hep r (List.mem_filterMap.mpr ⟨_, ho, rfl⟩)
  have h39 := C39_exactly_once _ hops
  rw [hw] at h39
  rw [h1]
  rw [← h39]
  have hsum := serve_conserves ((observations (hosting serialObj h env) Cdc.write h p
      (Sys.init devices w) es).map (fun o => serialOp o.1)) Cdc.new
  rw [hw] at hsum
  have hsum := congrArg List.length hsum
  simp only [List.length_append, Cdc.new, List.length_nil, Nat.zero_add] at hsum
  congr 1
  apply pointwise_flatMap
  have h5 := pointwise_filter (f := fun r => decide (BulkIn r.ep)) (g := fun x => decide (BulkIn x.1))
    h4 (fun a b hab => by rw [hab.1])
  refine pointwise_imp h5 ?_
  intro r x hr hx hc
  have hx' := (List.mem_filter.mp hx).1
  have hok := serve_answers_ok _ _ x hx'
  have hl := flatMap_length_le (fun x : Endpoint × HRes => HRes.bytes x.2) _ x hx'
  have hcar := hc.2
  rw [hok] at hcar
  simp only [Cdc.new] at hl
  exact (hcar.2 (.inl (hall r hr).1) (hall r hr).2 (by omega)).1

/-- C59 without any condition: whatever the clients ask and whatever goes wrong, what they are sent
by the port, over all connections in order, is a subsequence of the bytes written: nothing is
invented, repeated or reordered. -/
theorem C59_no_duplicates {σ} (env : Env σ) (h : Nat) (p : Profile) (devices : List Device)
    (w : World (σ × Cdc)) (hw : w.user.2 = Cdc.new) (es : List (HostedEvent σ Bytes)) :
    ((serialAll env h p (Sys.init devices w) es).flatMap Sent.data).Sublist (spoken es) := by
  obtain ⟨_, h2, h3⟩ := run_observed serialObj Cdc.write h env p es (Sys.init devices w)
  have hk : (Sys.init devices w).shared.world.user.2 = Cdc.new := hw
  rw [hk] at h2
  have h4 := serial_carry _ Cdc.new h3 h2
  have hw := written_spoken env h p es (Sys.init devices w)
  have hsum := serve_conserves ((observations (hosting serialObj h env) Cdc.write h p
      (Sys.init devices w) es).map (fun o => serialOp o.1)) Cdc.new
  rw [hw] at hsum
  have h5 : Pointwise (fun r (x : Endpoint × HRes) => (Sent.data r).Sublist (HRes.bytes x.2)) _ _ := pointwise_imp h4 (by
    intro r x _ hx hc
    have hok := serve_answers_ok _ _ x hx
    have hcar := hc.2
    rw [hok] at hcar
    exact hcar.1.sublist)
  refine (pointwise_sublist h5).trans ?_
  have : Cdc.new.txBuffer ++ spoken es = spoken es := rfl
  rw [this] at hsum
  rw [← hsum]
  exact List.sublist_append_left _ _

/-- Import of bus id "0-0-0", a write, then two reads of the bulk endpoint 2. -/
def serialBytes : Bytes :=
  [1, 17, 0x80, 3, 0, 0, 0, 0] ++ ([48, 45, 48, 45, 48] ++ List.replicate 27 0) ++
  (be32 1 ++ be32 1 ++ be32 0 ++ be32 0 ++ be32 2 ++ be32 0 ++ be32 1 ++ be32 0
    ++ be32 0 ++ be32 0 ++ List.replicate 8 0 ++ [99]) ++
  (List.replicate 2 (be32 1 ++ be32 9 ++ be32 0 ++ be32 1 ++ be32 2 ++ be32 0 ++ be32 512 ++ be32 0
    ++ be32 0 ++ be32 0 ++ List.replicate 8 0)).flatten

def serialHistory : List (HostedEvent Unit Bytes) :=
  [.server (.connect 3 ⟨serialBytes, .unexpectedEof⟩), .app [1, 2], .server (.iterate 3 .full),
   .server (.iterate 3 .full), .app [3], .server (.iterate 3 .full), .app [4, 5],
   .server (.iterate 3 .full), .app [6]]

def serialSys : Sys (Unit × Cdc) :=
  Sys.init (devicesOf (exampleSerial dev)) (freshWorld Cdc.new)

set_option maxRecDepth 100000 in
example : (serialReplies noHandlers 0 dev serialSys serialHistory).map Sent.data = [[1, 2, 3], [4, 5]] ∧
    (serialAll noHandlers 0 dev serialSys serialHistory).length = 3 ∧
    spoken serialHistory = [1, 2, 3, 4, 5, 6] := by
  decide +kernel

example : (∀ r ∈ serialAll noHandlers 0 dev serialSys serialHistory, r.ep.attributes.toNat = 2 ∨
      r.ep.attributes.toNat = 3 ∨ r.ep.address.toNat < 128) ∧
    ∀ r ∈ serialReplies noHandlers 0 dev serialSys serialHistory, r.direction = 1 ∧ r.write = .full := by
  decide +kernel

/-! ## C60 -/

/-- C60: both example programs start, in every build. -/
theorem C60_starts (p : Profile) :
    (∃ s, keyboardProgram p = some s) ∧ ∃ s, serialProgram p = some s := by
  rcases p with ⟨_ | _, _ | _⟩ <;> exact ⟨⟨_, rfl⟩, ⟨_, rfl⟩⟩

/-- C60 for the serial example: no client can end it. -/
theorem C60_serial (p : Profile) (es : List ProgEvent) :
    ∃ s, progRun serialObj serialFeed p (serialProgram p) es = some s := by
  obtain ⟨s0, hs0⟩ := (C60_starts p).2
  have h0 : s0.shared.world.ifPoisoned 0 = false := by
    unfold serialProgram at hs0
    split at hs0
    · simp only [Option.some.injEq] at hs0; subst hs0; rfl
    · simp at hs0
  cases h : progRun serialObj serialFeed p (serialProgram p) es with
  | some s => exact ⟨s, rfl⟩
  | none =>
    rw [hs0] at h
    obtain ⟨_, _, _, _, t, _, ep, st, _, _, _, _, _, hp⟩ := (prog_ended_iff _ _ p es s0 h0).mp h
    obtain ⟨b, hb⟩ := cdc_answers t.shared.world.user.2 ep
    rw [show serialObj ep st t.shared.world.user.2 = t.shared.world.user.2.handleUrb ep from rfl, hb] at hp
    simp at hp

/-- C60 for the keyboard example (what is missing: see `C60_fails`), exactly: it has ended if and only if its
main loop has come round after a client sent the keyboard a control request other than the two it knows. -/
theorem C60_keyboard_partial (p : Profile) (es : List ProgEvent) :
    progRun keyboardObj keyboardFeed p (keyboardProgram p) es = none ↔
    ∃ es1 c w es2 t j ep st, es = es1 ++ .iterate c w :: es2 ∧ .tick ∈ es2 ∧
      progRun keyboardObj keyboardFeed p (keyboardProgram p) es1 = some t ∧ job p t c = some j ∧
      j.urb 0 t.shared.world = some (ep, st) ∧ ep.address.toNat % 128 = 0 ∧ ¬ KeyboardKnows st := by
  obtain ⟨s0, hs0⟩ := (C60_starts p).1
  have h0 : s0.shared.world.ifPoisoned 0 = false := by
    unfold keyboardProgram at hs0
    split at hs0
    · simp only [Option.some.injEq] at hs0; subst hs0; rfl
    · simp at hs0
  rw [hs0]
  simp only [prog_ended_iff _ _ p es s0 h0, keyboard_panics_iff]

/-- A client that imports the keyboard and asks for its current report (HID GET_REPORT, a request
every HID device has to support). -/
def getReport : Bytes :=
  [1, 17, 0x80, 3, 0, 0, 0, 0] ++ ([48, 45, 48, 45, 48] ++ List.replicate 27 0) ++
  be32 1 ++ be32 9 ++ be32 0 ++ be32 1 ++ be32 0 ++ be32 0 ++ be32 8 ++ be32 0
    ++ be32 0 ++ be32 0 ++ [0xA1, 1, 0, 1, 0, 0, 8, 0]

set_option maxRecDepth 100000 in
/-- C60 fails for the keyboard example: one such request, and the program ends at the next round of
its main loop.  Until then it was running. -/
theorem C60_fails (p : Profile) :
    progRun keyboardObj keyboardFeed p (keyboardProgram p)
      [.connect 0 ⟨getReport, .unexpectedEof⟩, .tick, .iterate 0 .full, .iterate 0 .full, .tick] = none ∧
    progRun keyboardObj keyboardFeed p (keyboardProgram p)
      [.connect 0 ⟨getReport, .unexpectedEof⟩, .tick, .iterate 0 .full, .iterate 0 .full] ≠ none := by
  constructor
  · rcases p with ⟨_ | _, _ | _⟩ <;> rfl
  · rcases p with ⟨_ | _, _ | _⟩ <;> exact Option.some_ne_none _

end Usbip
