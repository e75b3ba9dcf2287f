import Verif.Lemmas.Network
import Verif.Props.Session
/-!
# Clients that react to what they are sent: C73
-/

namespace Usbip
open Spec Samples

/-- C73, causality: whatever the clients will send after a history, the server does during the history the
same: looked at with the whole of what clients send given in advance, the state of the server and of every
connection is the state reached interactively, with what was sent later still unread. -/
theorem C73_causal {σ} (env : Env σ) (p : Profile) (devices : List Device) (w : World σ)
    (es : List (NetEvent σ)) (rest : Nat → Stream) :
    let n := (Net.init devices w).run env p es
    let t := (Sys.init devices w).run env p (hindsight env p rest (Net.init devices w) es)
    t.shared = n.sys.shared ∧
    ∀ c, t.conns c = (n.sys.conns c).map (fun x => { x with input :=
      (match n.ended c with
       | some e => ⟨x.input.bytes, e⟩
       | none => ⟨x.input.bytes ++ (rest c).bytes, (rest c).fin⟩) }) := by
  have h := foresees_run env p rest es _ _ (foresees_init devices w (upcoming (Net.init devices w) rest es))
  refine ⟨h.shared, ?_⟩
  intro c
  rw [h.conns c]
  congr 1
  funext x
  unfold awaiting upcoming
  cases ((Net.init devices w).run env p es).ended c <;> simp [sent]

/-- C73: an interactive history of the server, with clients sending piece by piece in reaction to
whatever they are sent, ends in exactly the state of a history in which every client has given
everything it sends from the start.  So what is proved of those holds for interactive clients. -/
theorem C73_interactive {σ} (env : Env σ) (p : Profile) (devices : List Device) (w : World σ)
    (es : List (NetEvent σ)) :
    ((Net.init devices w).run env p es).sys = (Sys.init devices w).run env p
      (hindsight env p (fun _ => ⟨[], .unexpectedEof⟩) (Net.init devices w) es) := by
  have h := foresees_run env p (fun _ => ⟨[], .unexpectedEof⟩) es _ _
    (foresees_init devices w (upcoming (Net.init devices w) (fun _ => ⟨[], .unexpectedEof⟩) es))
  have ho := openFin_run env p es (Net.init devices w) (by intro c x hx; simp [Net.init, Sys.init] at hx)
  generalize (Net.init devices w).run env p es = n at h ho ⊢
  generalize (Sys.init devices w).run env p _ = t at h ⊢
  have hc : t.conns = n.sys.conns := by
    funext c
    rw [h.conns c]
    cases hx : n.sys.conns c with
    | none => rfl
    | some x =>
      simp only [Option.map_some, Option.some.injEq, awaiting, upcoming]
      cases he : n.ended c with
      | none => simp only [sent, List.append_nil, ← ho c x hx he]
      | some e => simp only [List.append_nil, ← h.fin c x e hx he]
  cases t with
  | mk sh cs =>
    simp only at hc
    rw [hc, show sh = n.sys.shared from h.shared]

/-- C73: the other direction. -/
theorem C73_realised {σ} (env : Env σ) (p : Profile) (devices : List Device) (w : World σ) (es : List (Event σ)) :
    ((Net.init devices w).run env p (es.flatMap atOnce)).sys = (Sys.init devices w).run env p es := by
  have gen : ∀ (es : List (Event σ)) (n : Net σ) (t : Sys σ), n.sys = t →
      (∀ c, (n.sys.conns c).isSome = (n.ended c).isSome) →
      (n.run env p (es.flatMap atOnce)).sys = t.run env p es := by
    intro es
    induction es with
    | nil => intro n t h _; exact h
    | cons e es ih =>
      intro n t h hen
      subst h
      rw [List.flatMap_cons, Net.run, List.foldl_append]
      have same : ∀ e', (∀ c i, e' ≠ .connect c i) → ∀ c, ((n.sys.step env p e').conns c).isSome = (n.ended c).isSome := by
        intro e' he' c
        rw [← hen c]
        cases e' with
        | connect c i => exact absurd rfl (he' c i)
        | iterate c' w =>
          cases hc : n.sys.conns c' with
          | none => simp only [Sys.step, hc]
          | some x =>
            by_cases hr : x.status = .running
            · simp only [Sys.step, hc, if_pos hr, setConn]
              split
              · rename_i h; subst h; simp [hc]
              · rfl
            · simp only [Sys.step, hc, if_neg hr]
        | cancel c' =>
          cases hc : n.sys.conns c' with
          | none => simp only [Sys.step, hc]
          | some x =>
            by_cases hr : x.status = .running
            · simp only [Sys.step, hc, if_pos hr, setConn]
              split
              · rename_i h; subst h; simp [hc]
              · rfl
            · simp only [Sys.step, hc, if_neg hr]
        | addDevice d => rfl
        | removeDevice id => rfl
        | user f => rfl
      cases e with
      | connect c i =>
        cases hc : n.sys.conns c with
        | some x =>
          have hee : (n.ended c).isSome = true := by rw [← hen c, hc]; rfl
          obtain ⟨e, he⟩ := Option.isSome_iff_exists.mp hee
          have h1 : n.step env p (.connect c) = n := by simp only [Net.step, Sys.step, hc]
          have h2 : ∀ bs, n.step env p (.arrive c bs) = n := by intro bs; simp only [Net.step, hc, he]
          have h3 : ∀ e, n.step env p (.hangup c e) = n := by intro bs; simp only [Net.step, hc, he]
          simp only [atOnce, List.foldl_cons, List.foldl_nil, h1, h2, h3]
          refine ih n _ ?_ hen
          simp only [Sys.step, hc]
        | none =>
          have he : n.ended c = none := by
            have := hen c
            rw [hc] at this
            cases hn : n.ended c with
            | none => rfl
            | some e => rw [hn] at this; simp at this
          refine ih _ _ ?_ ?_
          · simp only [atOnce, List.foldl_cons, List.foldl_nil, Net.step, Sys.step, hc, setConn, if_true, he,
              Conn.new, List.nil_append]
            congr 1
            funext c'
            by_cases hcc : c' = c
            · simp [hcc, setConn]
            · simp [hcc, setConn]
          · intro c'
            simp only [atOnce, List.foldl_cons, List.foldl_nil, Net.step, Sys.step, hc, setConn, if_true, he,
              Conn.new, List.nil_append]
            by_cases hcc : c' = c
            · simp [hcc]
            · simp only [if_neg hcc]; exact hen c'
      | iterate c w =>
        by_cases hr : n.ready p c = true
        · refine ih _ _ ?_ ?_
          · simp only [atOnce, List.foldl_cons, List.foldl_nil, Net.step, if_pos hr]
          · simp only [atOnce, List.foldl_cons, List.foldl_nil, Net.step, if_pos hr]
            exact same _ (by rintro _ _ ⟨⟩)
        · have hc : n.sys.conns c = none := by
            cases hc : n.sys.conns c with
            | none => rfl
            | some x =>
              have hee : (n.ended c).isSome = true := by rw [← hen c, hc]; rfl
              obtain ⟨e, he⟩ := Option.isSome_iff_exists.mp hee
              simp [Net.ready, hc, he] at hr
          refine ih _ _ ?_ ?_
          · simp only [atOnce, List.foldl_cons, List.foldl_nil, Net.step, if_neg hr, Sys.step, hc]
          · simp only [atOnce, List.foldl_cons, List.foldl_nil, Net.step, if_neg hr]
            exact hen
      | cancel c => exact ih _ _ rfl (same (.cancel c) (by rintro _ _ ⟨⟩))
      | addDevice d => exact ih _ _ rfl (same (.addDevice d) (by rintro _ _ ⟨⟩))
      | removeDevice id => exact ih _ _ rfl (same (.removeDevice id) (by rintro _ _ ⟨⟩))
      | user f crash => exact ih _ _ rfl (same (.user f crash) (by rintro _ _ ⟨⟩))
  exact gen es _ _ rfl (fun _ => rfl)

/-- C73: what holds in every state of the server reached with clients that say everything at once
holds in every state reached with clients that react. -/
theorem C73_transfer {σ} (env : Env σ) (p : Profile) (devices : List Device) (w : World σ)
    (P : Sys σ → Prop) (hP : ∀ es, P ((Sys.init devices w).run env p es)) (es : List (NetEvent σ)) :
    P ((Net.init devices w).run env p es).sys := by
  rw [C73_interactive]
  exact hP _

/-- C73: the same for properties that need bus ids to be unique. -/
theorem C73_transfer_fresh {σ} (env : Env σ) (p : Profile) (devices : List Device) (w : World σ)
    (P : Sys σ → Prop)
    (hP : ∀ es, Fresh env p (Sys.init devices w) es → P ((Sys.init devices w).run env p es))
    (es : List (NetEvent σ)) (hf : FreshNet env p (Net.init devices w) es) :
    P ((Net.init devices w).run env p es).sys := by
  rw [C73_interactive]
  exact hP _ (fresh_hindsight env p _ es _ _ (foresees_init devices w _) hf)

/-- C73, an instance (C22): two live connections of interactive clients do not hold the same device. -/
theorem C73_exclusive {σ} (env : Env σ) (p : Profile) (devices : List Device) (w : World σ)
    (es : List (NetEvent σ)) (hd : (devices.map Device.busId).Nodup)
    (hf : FreshNet env p (Net.init devices w) es) (c₁ c₂ : Nat) (id : Bytes)
    (h₁ : Holds ((Net.init devices w).run env p es).sys c₁ id)
    (h₂ : Holds ((Net.init devices w).run env p es).sys c₂ id) : c₁ = c₂ :=
  C73_transfer_fresh env p devices w (fun s => Holds s c₁ id → Holds s c₂ id → c₁ = c₂)
    (fun es hf => C22_exclusive env p devices w es hd hf c₁ c₂ id) es hf h₁ h₂

/-- C73: a command is waited for exactly until its last byte has arrived.  While only a part of its
packet is there, scheduling the connection's task changes nothing; as soon as the packet is there,
whatever follows it or not, the next iteration reads exactly that command. -/
theorem C73_prompt {σ} (env : Env σ) (p : Profile) (s : Net σ) (c : Nat) (x : Conn) (cmd : Cmd)
    (packet : Bytes) (hx : s.sys.conns c = some x) (he : s.ended c = none)
    (hw : WellFormed p.debugAssertions cmd) (hp : PacketFor cmd packet) :
    (∀ post, post ≠ [] → packet = x.input.bytes ++ post → ∀ wr, s.step env p (.iterate c wr) = s) ∧
    (∀ rest, x.input.bytes = packet ++ rest → ∀ wr,
      s.step env p (.iterate c wr) = { s with sys := s.sys.step env p (.iterate c wr) } ∧
      readCommand p x.input = .ok (cmd, ⟨rest, x.input.fin⟩)) := by
  have hE := early_readCommand p x.input.bytes
  have full := fun rest fin => readCommand_fwd p cmd packet rest fin hw hp
  constructor
  · intro post hne hsplit wr
    have cut := fun fin => C05_truncated p cmd hw packet x.input.bytes post fin hp hsplit hne
    have hd : (readCommand p : Rd Arrived Cmd) ⟨x.input.bytes⟩ = .diverge := by
      cases hr : (readCommand p : Rd Arrived Cmd) ⟨x.input.bytes⟩ with
      | ok r =>
        rw [hr] at hE
        have := hE [] .unexpectedEof
        rw [List.append_nil, cut] at this; simp at this
      | err e =>
        rw [hr] at hE
        have := hE post .unexpectedEof
        rw [← hsplit, ← List.append_nil packet, full] at this; simp at this
      | panic =>
        rw [hr] at hE
        have := hE [] .unexpectedEof
        rw [List.append_nil, cut] at this; simp at this
      | diverge => rfl
    have : s.ready p c = false := by simp only [Net.ready, hx, he, hd]
    simp [Net.step, this]
  · intro rest hsplit wr
    have hf := full rest x.input.fin
    rw [← hsplit] at hf
    have hd : (readCommand p : Rd Arrived Cmd) ⟨x.input.bytes⟩ ≠ .diverge := by
      intro hd
      rw [hd] at hE
      have := hE x.input.fin
      rw [hf] at this; simp at this
    have : s.ready p c = true := by
      simp only [Net.ready, hx, he]
    exact ⟨by simp only [Net.step, this, if_true], hf⟩

/-- C73: a packet that cannot be one is refused once its first four bytes have arrived. -/
theorem C73_refused {σ} (env : Env σ) (p : Profile) (s : Net σ) (c : Nat) (x : Conn)
    (a b d e : UInt8) (rest : Bytes) (hx : s.sys.conns c = some x) (he : s.ended c = none)
    (hb : x.input.bytes = a :: b :: d :: e :: rest)
    (h : ¬ ([a, b] ∈ [[0, 0], [0x01, 0x11]] ∧
      [d, e] ∈ [[0x80, 0x05], [0x80, 0x03], [0, 1], [0, 2]])) (wr : WriteRes) :
    s.step env p (.iterate c wr) = { s with sys := s.sys.step env p (.iterate c wr) } ∧
    (readCommand p : Rd Stream Cmd) x.input = .err .other := by
  have hE := early_readCommand p x.input.bytes
  have hr := fun fin => C04_refused p a b d e rest fin h
  rw [← hb] at hr
  have hd : (readCommand p : Rd Arrived Cmd) ⟨x.input.bytes⟩ ≠ .diverge := by
    intro hd
    rw [hd] at hE
    have := hE .unexpectedEof
    rw [hr] at this; simp at this
  have : s.ready p c = true := by
    simp only [Net.ready, hx, he]
  exact ⟨by simp only [Net.step, this, if_true], hr _⟩

/-- Not vacuous: the client asks for the list of devices, in two pieces; the task is scheduled in between
and waits.  After the reply the client imports the device it has been told of, then leaves; another
client does the same, and is served the device after the first has left. -/
example :
    let list := wireCmd (.reqDevlist 0)
    let imp := wireCmd (.reqImport 0 busA)
    let es : List (NetEvent Nat) :=
      [.connect 0, .arrive 0 (list.take 3), .iterate 0 .full, .connect 1, .arrive 0 (list.drop 3),
       .iterate 0 .full, .iterate 0 .full, .arrive 0 imp, .arrive 1 list, .iterate 0 .full, .iterate 1 .full,
       .arrive 1 imp, .hangup 0 .unexpectedEof, .iterate 0 .full, .iterate 1 .full]
    let n := (Net.init [devA] world).run Samples.env dev es
    FreshNet Samples.env dev (Net.init [devA] world) es ∧
    ((Net.init [devA] world).run Samples.env dev (es.take 4)).sys.conns 0 = some
      { input := ⟨list.take 3, .unexpectedEof⟩, current := none, output := [], status := .running, served := [] } ∧
    (n.sys.conns 0).map (fun x => (x.served.length, x.current, x.status)) = some (2, none, .closed) ∧
    (n.sys.conns 1).map (fun x => (x.served.length, x.current, x.status)) = some (2, some [49, 45, 49], .running) ∧
    (hindsight Samples.env dev (fun _ => ⟨[], .unexpectedEof⟩) (Net.init [devA] world) es).length = 7 ∧
    (es.length = 15) := by
  refine ⟨?_, ?_, by decide +kernel, by decide +kernel, by decide +kernel, rfl⟩
  · refine ⟨?_, ?_, ?_, ?_, ?_, ?_, ?_, ?_, ?_, ?_, ?_, ?_, ?_, ?_, ?_, ?_⟩ <;> exact True.intro
  · rfl

end Usbip
