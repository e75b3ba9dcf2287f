import Verif.Lemmas.Reference
import Verif.Props.Network
import Verif.Props.Locks
import Verif.Props.Concurrent
import Verif.Spec.Samples
/-! C76: the server is the reference server. -/

namespace Usbip
open Spec Samples

/-- C76: what a device says to a transfer, for every device, endpoint, setup packet, payload, state of
the handlers and build. -/
theorem C76_urb {σ} (env : Env σ) (p : Profile) (d : Device) (ep : Endpoint) (owner : Option Iface)
    (len : UInt32) (setup : SetupPacket) (data : Bytes) (w : World σ) :
    (d.handleUrb env p ep owner len setup data w).2 = (said env p d ep owner len setup data w).2 ∧
    match (said env p d ep owner len setup data w).1 with
    | .data b => (d.handleUrb env p ep owner len setup data w).1 = .ok b
    | .failure => ∃ e, (d.handleUrb env p ep owner len setup data w).1 = .err e
    | .crash => (d.handleUrb env p ep owner len setup data w).1 = .panic := by
  obtain ⟨h1, h2⟩ := handleUrb_said env p d ep owner len setup data w
  refine ⟨h2.symm, ?_⟩
  generalize (said env p d ep owner len setup data w).1 = v at h1
  cases v <;> exact h1

/-- All three kinds of answer occur. -/
example : (said env dev devA devA.ep0In none 18 ⟨128, 6, 256, 0, 3⟩ [] world).1 = .data [18, 1, 0] ∧
    (said env dev devA ⟨0x81, 2, 64, 0⟩ (some intf0) 8 ⟨0, 0, 0, 0, 0⟩ [] world).1 = .data [0, 7] ∧
    (said env dev devA ⟨0x81, 2, 64, 0⟩ (some { intf0 with handler := 9 }) 8 ⟨0, 0, 0, 0, 0⟩ [] world).1 = .failure ∧
    (said env dev devA ⟨0x83, 3, 8, 1⟩ (some intf1) 8 ⟨0, 0, 0, 0, 0⟩ [] world).1 = .crash := by
  decide +kernel

/-- C76: whatever clients and application do, the server cannot be told apart from the reference
server, as long as devices are added under bus ids that no free or held device has. -/
theorem C76_server {σ} (env : Env σ) (p : Profile) (devices : List Device) (w : World σ) (es : List (Event σ))
    (hd : (devices.map Device.busId).Nodup) (ht : Tidy env p (Server.start devices w) es) :
    Alike ((Sys.init devices w).run env p es) ((Server.start devices w).run env p es) :=
  ((Tracks.init devices w hd).run es ht).alike

/-- C76 for concurrent executions: at every moment the handlers' state, every connection between
requests, and the device list (unless somebody is changing it) are those of the reference server
after the operations that have taken effect. -/
theorem C76_concurrent {σ} (env : Env σ) (p : Profile) (devices : List Device) (w : World σ)
    (ls : List (Label σ)) (s : Cfg σ) (h : Cfg.Reach env p (Cfg.init devices w) ls s)
    (hd : (devices.map Device.busId).Nodup)
    (ht : Tidy env p (Server.start devices w) (ls.filterMap Label.event)) :
    let t := (Server.start devices w).run env p (ls.filterMap Label.event)
    s.shared.world = t.world ∧ (∀ c, s.idle c → Seen (s.conns c) (t.clients c)) ∧
    ((∀ t f, s.flights t = some f → f.held .avail ≠ some .w) → s.shared.available = t.free) := by
  obtain ⟨h1, h2, _, h4⟩ := C35_observed env p devices w ls s h
  have ha := C76_server env p devices w _ hd ht
  exact ⟨h1.trans ha.world, fun c hc => by rw [h2 c hc]; exact ha.conns c, fun hn => (h4 hn).trans ha.free⟩

/-- C76 for clients that send piece by piece and react to what they receive. -/
theorem C76_interactive {σ} (env : Env σ) (p : Profile) (devices : List Device) (w : World σ)
    (es : List (NetEvent σ)) (hd : (devices.map Device.busId).Nodup)
    (ht : TidyLive env p (Live.start devices w) es) :
    Alike ((Net.init devices w).run env p es).sys ((Live.start devices w).run env p es).server :=
  (TracksNet.run es ⟨Tracks.init devices w hd, fun _ => rfl⟩ ht).sys.alike

/-- If no device is added, the hypothesis on bus ids is one on the initial devices only. -/
theorem tidy_of_no_add {σ} (env : Env σ) (p : Profile) (es : List (Event σ)) :
    (∀ e ∈ es, ∀ d, e ≠ .addDevice d) → ∀ t : Server σ, Tidy env p t es := by
  induction es with
  | nil => intro _ _; trivial
  | cons e es ih =>
    intro h t
    refine ⟨?_, ih (fun e' h' => h e' (List.mem_cons_of_mem _ h')) _⟩
    cases e <;> first | trivial | exact absurd rfl (h _ (List.mem_cons_self ..) _)

/-- A client that imports "1-1" and asks for its device descriptor. -/
def curious : Stream := ⟨wireCmd (.reqImport 0 busA) ++ wireCmd cmdGetDesc, .unexpectedEof⟩

/-- A device with the bus id of `devA`, made by somebody else. -/
def devA' : Device := { devA with vendorId := 0x4321 }

/-- A client imports a device and is cut off; the device it had is replaced by one with the same bus
id, which another client imports and asks for its descriptor. -/
def replaced : List (Event Nat) :=
  [.connect 0 curious, .iterate 0 .full, .cancel 0, .addDevice devA', .connect 1 curious, .iterate 1 .full,
   .iterate 1 .full]

theorem clients_none {σ} (env : Env σ) (p : Profile) (c : Nat) (es : List (Event σ)) :
    (∀ e ∈ es, ∀ i, e ≠ .connect c i) → ∀ t : Server σ, t.clients c = none → (t.run env p es).clients c = none := by
  induction es with
  | nil => intro _ t h; exact h
  | cons e es ih =>
    intro h t ht
    refine ih (fun e' h' => h e' (List.mem_cons_of_mem _ h')) _ ?_
    have he := h e (List.mem_cons_self ..)
    have hset : ∀ (t' : Server σ) c' y, t'.clients = t.clients → t.clients c' ≠ none → (t'.set c' y).clients c = none := by
      intro t' c' y e1 e2
      simp only [Server.set, e1]
      split
      · rename_i e3; subst e3; exact absurd ht e2
      · exact ht
    cases e with
    | connect c' i =>
      simp only [Server.step]
      split
      · exact ht
      · simp only [Server.set]
        rw [if_neg (fun e' => he i (by rw [e']))]
        exact ht
    | iterate c' w =>
      simp only [Server.step]
      cases hc : t.clients c' with
      | none => exact ht
      | some y =>
        dsimp only
        split
        · refine hset _ _ _ ?_ (by simp [hc])
          unfold Server.turn
          cases parse p.debugAssertions y.input.bytes with
          | request r rest =>
            have ha : (t.answer env p y.device r).2.1.clients = t.clients := by
              cases r with
              | list => rfl
              | cancel ids => rfl
              | claim id => simp only [Server.answer]; split <;> rfl
              | transfer ids d e l s da => simp only [Server.answer]; split <;> rfl
            dsimp only
            generalize t.answer env p y.device r = q at ha
            obtain ⟨reply, t', dev'⟩ := q
            cases reply with
            | none => exact ha
            | some b => cases w <;> exact ha
          | incomplete => rfl
          | refused => rfl
          | crash => rfl
        · exact ht
    | cancel c' =>
      simp only [Server.step]
      cases hc : t.clients c' with
      | none => exact ht
      | some y =>
        dsimp only
        split
        · exact hset _ _ _ rfl (by simp [hc])
        · exact ht
    | addDevice d => exact ht
    | removeDevice id => exact ht
    | user f => exact ht

/-- The hypothesis can be met although a lost device's bus id is used again, and the second client is
answered by the second device. -/
example : Tidy env dev (Server.start [devA, devB] world) replaced ∧
    ((Server.start [devA, devB] world).run env dev replaced).free.map Device.busId = [devB.busId] ∧
    (((Server.start [devA, devB] world).run env dev replaced).clients 1).map (fun y =>
      (y.status, (y.sent.drop (8 + 312 + 48 + 8)).take 2)) = some (.running, [0x21, 0x43]) := by
  refine ⟨⟨trivial, trivial, trivial, ⟨?_, ?_⟩, trivial, trivial, trivial, trivial⟩, by decide +kernel, by decide +kernel⟩
  · decide +kernel
  · intro c x d hx hr _
    by_cases hc : c = 0
    · subst hc
      have : (((Server.start [devA, devB] world).run env dev (replaced.take 3)).clients 0).map Client.status
          = some .cancelled := by decide +kernel
      have hx' : ((Server.start [devA, devB] world).run env dev (replaced.take 3)).clients 0 = some x := hx
      rw [hx'] at this
      simp [hr] at this
    · have hx' : ((Server.start [devA, devB] world).run env dev (replaced.take 3)).clients c = some x := hx
      rw [clients_none env dev c _ (by
        intro e he i
        simp only [replaced, List.take, List.mem_cons, List.not_mem_nil, or_false] at he
        rcases he with rfl | rfl | rfl <;> simp
        exact fun h => absurd h.symm hc) _ rfl] at hx'
      simp at hx'

/-- Two live clients with devices of the same bus id: the second was added while the first was held. -/
def confused : List (Event Nat) :=
  [.connect 0 curious, .iterate 0 .full, .addDevice devA', .connect 1 curious, .iterate 1 .full, .iterate 0 .full]

/-- C76: the hypothesis on bus ids is needed.  Otherwise a client may be answered by a device it never
imported: it has imported a device of vendor 0x1234 and is told that the vendor is 0x4321. -/
theorem C76_confusion : ¬ ∀ es : List (Event Nat),
    Alike ((Sys.init [devA] world).run env dev es) ((Server.start [devA] world).run env dev es) := by
  intro h
  have hc := (h confused).conns 0
  have h1 : (((Sys.init [devA] world).run env dev confused).conns 0).map (fun x => (x.output.drop 376).take 2)
      = some [0x21, 0x43] := by decide +kernel
  have h2 : (((Server.start [devA] world).run env dev confused).clients 0).map (fun y => (y.sent.drop 376).take 2)
      = some [0x34, 0x12] := by decide +kernel
  have := congrArg (Option.map (fun v : Stream × Bytes × Status => (v.2.1.drop 376).take 2)) hc
  simp only [Option.map_map] at this
  have e1 : (((Sys.init [devA] world).run env dev confused).conns 0).map
      ((fun v : Stream × Bytes × Status => (v.2.1.drop 376).take 2) ∘ fun x => (x.input, x.output, x.status))
      = some [0x21, 0x43] := h1
  rw [e1] at this
  have e2 : (((Server.start [devA] world).run env dev confused).clients 0).map
      ((fun v : Stream × Bytes × Status => (v.2.1.drop 376).take 2) ∘ fun y => (y.input, y.sent, y.status))
      = some [0x34, 0x12] := h2
  rw [e2] at this
  simp at this

/-- The hypotheses of `C76_concurrent` can be met with a device in a client's hands. -/
example : ∃ ls s, Cfg.Reach env dev (Cfg.init [devA, devB] world) ls s ∧ (∀ t, s.flights t = none) ∧
    Tidy env dev (Server.start [devA, devB] world) (ls.filterMap Label.event) ∧
    (s.conns 0).map (fun x => (x.status, (x.output.drop 376).take 2)) = some (.running, [0x34, 0x12]) := by
  obtain ⟨ls, s, h, hn, hs, hc, hsub⟩ := C35_realised env dev [devA, devB] world
    [.connect 0 curious, .iterate 0 .full, .iterate 0 .full]
  refine ⟨ls, s, h, hn, tidy_of_no_add env dev _ (fun e he d hd => ?_) _, by rw [hc]; decide +kernel⟩
  have := hsub.subset he
  subst hd
  simp at this

/-- An interactive history meeting the hypotheses of `C76_interactive`: the first client's request
arrives in two pieces, with an iteration in between that has to wait. -/
example :
    let es : List (NetEvent Nat) :=
      [.connect 0, .arrive 0 (curious.bytes.take 20), .iterate 0 .full, .arrive 0 (curious.bytes.drop 20),
       .iterate 0 .full, .iterate 0 .full, .iterate 0 .full, .hangup 0 .unexpectedEof, .iterate 0 .full]
    TidyLive env dev (Live.start [devA, devB] world) es ∧
    ((((Live.start [devA, devB] world).run env dev (es.take 3)).server.clients 0).map (fun y => (y.input.bytes.length, y.status)))
      = some (20, .running) ∧
    (((Live.start [devA, devB] world).run env dev es).server.clients 0).map (fun y => (y.status, (y.sent.drop 376).take 2))
      = some (.closed, [0x34, 0x12]) ∧
    ((Live.start [devA, devB] world).run env dev es).server.free.map Device.busId = [devB.busId, devA.busId] := by
  exact ⟨⟨trivial, trivial, trivial, trivial, trivial, trivial, trivial, trivial, trivial, trivial⟩, by decide +kernel,
    by decide +kernel, by decide +kernel⟩

end Usbip
