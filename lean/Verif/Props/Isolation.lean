import Verif.Lemmas.Isolation
import Verif.Spec.Samples
/-!
# Isolation of clients: C70
-/

namespace Usbip
open Spec Samples

theorem fresh_append {σ} (env : Env σ) (p : Profile) (es fs : List (Event σ)) : ∀ s : Sys σ,
    Fresh env p s (es ++ fs) → Fresh env p s es ∧ Fresh env p (s.run env p es) fs := by
  induction es with
  | nil => intro s h; exact ⟨trivial, h⟩
  | cons e es ih => intro s h; exact ⟨⟨h.1, (ih _ h.2).1⟩, (ih _ h.2).2⟩

theorem side_run {σ τ α} (who : HandlerId → Bool) (others : Env σ) (mine : Env τ) (act : α → τ → τ)
    (p : Profile) (c : Nat) (id : Bytes) (d : Device) (hd : ∀ k ∈ handlersOf d, who k = true)
    (es : List (HostedEvent σ α)) : ∀ (s : Sys (σ × τ)) (t : Sys τ), Side who p c id d s t →
    Fresh (beside who others mine) p s (es.map (HostedEvent.event act)) →
    (∀ y, .server (.addDevice y) ∈ es → ∀ k ∈ handlersOf y, who k = false) →
    Side who p c id d (s.run (beside who others mine) p (es.map (HostedEvent.event act)))
      (t.run mine p (es.filterMap (concerning who c act))) := by
  induction es with
  | nil => intro s t h _ _; exact h
  | cons e es ih =>
    intro s t h hf ha
    have h1 := side_step who others mine act p c id d hd s t h e
      (fun y hy x hx => by have := hf.1; rw [hy] at this; exact this x hx)
      (fun y hy => ha y (by
        have : e = .server (.addDevice y) := by
          cases e with
          | app a => simp [HostedEvent.event] at hy
          | server e => cases e <;> simp_all [HostedEvent.event]
        rw [this]; exact List.mem_cons_self ..))
    have h2 := ih _ _ h1 hf.2 (fun y hy => ha y (List.mem_cons_of_mem _ hy))
    have : t.run mine p ((e :: es).filterMap (concerning who c act))
        = (t.run mine p (concerning who c act e).toList).run mine p (es.filterMap (concerning who c act)) := by
      rw [List.filterMap_cons]
      cases concerning who c act e <;> rfl
    rw [this]
    exact h2

/-- C70: a client that has imported a device, and only uses it from then on, is served exactly as if
it were alone: connect any other clients, let them do anything with the other devices, have their
handlers panic, add and remove devices, let the application do anything with the others' state.  What
the client is sent, and how its connection ends, is what a server with only this connection and this
device does with the client's own part of the history; and as long as the connection goes on, so is
the state of its handlers. -/
theorem C70_isolated {σ τ α} (who : HandlerId → Bool) (others : Env σ) (mine : Env τ)
    (act : α → τ → τ) (p : Profile) (devices : List Device) (w : World (σ × τ))
    (past : List (Event (σ × τ))) (es : List (HostedEvent σ α))
    (hn : (devices.map Device.busId).Nodup)
    (hf : Fresh (beside who others mine) p (Sys.init devices w) (past ++ es.map (HostedEvent.event act)))
    (c : Nat) (x : Conn) (id : Bytes) (d : Device) :
    let env := beside who others mine
    let s := (Sys.init devices w).run env p past
    s.conns c = some x → x.status = .running → x.current = some id →
    amGet id s.shared.used = some d → OnlyUrbs p x.input →
    (∀ k ∈ handlersOf d, who k = true) →
    (∀ y ∈ onServer s.shared, y.busId ≠ id → ∀ k ∈ handlersOf y, who k = false) →
    (∀ y, .server (.addDevice y) ∈ es → ∀ k ∈ handlersOf y, who k = false) →
    let s' := s.run env p (es.map (HostedEvent.event act))
    let t' := (alone c x id d (ownWorld who s.shared.world)).run mine p (es.filterMap (concerning who c act))
    s'.conns c = t'.conns c ∧
    ((∃ y, s'.conns c = some y ∧ y.status = .running) →
      ownWorld who s'.shared.world = t'.shared.world) := by
  intro env s hx hr hc hg hu hm ho ha s' t'
  obtain ⟨hf1, hf2⟩ := fresh_append _ _ _ _ _ hf
  have hinv : Inv s.shared s.conns := Inv.run env p past _ (Inv.init devices w hn) hf1
  have h0 : Side who p c id d s (alone c x id d (ownWorld who s.shared.world)) :=
    ⟨hinv, ho, by rw [hx]; simp [alone], x, hx, fun _ => ⟨hc, hu, hg, rfl, rfl⟩⟩
  have h := side_run who others mine act p c id d hm es s _ h0 hf2 ha
  refine ⟨h.conn, fun ⟨y, hy, hyr⟩ => ?_⟩
  obtain ⟨y', hy', hgo⟩ := h.going
  have : y' = y := Option.some.inj (hy'.symm.trans hy)
  subst this
  exact (hgo hyr).2.2.2.2

/-- C70, as a comparison of two servers: whatever else differs between them (other devices, handlers
and clients, their histories before and after), a client that imports the same device in the same
state and does the same with it is sent the same bytes. -/
theorem C70_noninterference {σ₁ σ₂ τ α} (who₁ who₂ : HandlerId → Bool) (others₁ : Env σ₁)
    (others₂ : Env σ₂) (mine : Env τ) (act : α → τ → τ) (p : Profile)
    (devices₁ devices₂ : List Device) (w₁ : World (σ₁ × τ)) (w₂ : World (σ₂ × τ))
    (past₁ : List (Event (σ₁ × τ))) (past₂ : List (Event (σ₂ × τ)))
    (es₁ : List (HostedEvent σ₁ α)) (es₂ : List (HostedEvent σ₂ α))
    (hn₁ : (devices₁.map Device.busId).Nodup) (hn₂ : (devices₂.map Device.busId).Nodup)
    (hf₁ : Fresh (beside who₁ others₁ mine) p (Sys.init devices₁ w₁)
      (past₁ ++ es₁.map (HostedEvent.event act)))
    (hf₂ : Fresh (beside who₂ others₂ mine) p (Sys.init devices₂ w₂)
      (past₂ ++ es₂.map (HostedEvent.event act)))
    (c : Nat) (x : Conn) (id : Bytes) (d : Device) :
    let s₁ := (Sys.init devices₁ w₁).run (beside who₁ others₁ mine) p past₁
    let s₂ := (Sys.init devices₂ w₂).run (beside who₂ others₂ mine) p past₂
    s₁.conns c = some x → s₂.conns c = some x → x.status = .running → x.current = some id →
    amGet id s₁.shared.used = some d → amGet id s₂.shared.used = some d → OnlyUrbs p x.input →
    (∀ k ∈ handlersOf d, who₁ k = true ∧ who₂ k = true) →
    (∀ y ∈ onServer s₁.shared, y.busId ≠ id → ∀ k ∈ handlersOf y, who₁ k = false) →
    (∀ y ∈ onServer s₂.shared, y.busId ≠ id → ∀ k ∈ handlersOf y, who₂ k = false) →
    (∀ y, .server (.addDevice y) ∈ es₁ → ∀ k ∈ handlersOf y, who₁ k = false) →
    (∀ y, .server (.addDevice y) ∈ es₂ → ∀ k ∈ handlersOf y, who₂ k = false) →
    ownWorld who₁ s₁.shared.world = ownWorld who₂ s₂.shared.world →
    es₁.filterMap (concerning who₁ c act) = es₂.filterMap (concerning who₂ c act) →
    (s₁.run (beside who₁ others₁ mine) p (es₁.map (HostedEvent.event act))).conns c
      = (s₂.run (beside who₂ others₂ mine) p (es₂.map (HostedEvent.event act))).conns c := by
  intro s₁ s₂ hx₁ hx₂ hr hc hg₁ hg₂ hu hm ho₁ ho₂ ha₁ ha₂ hw he
  have h1 := (C70_isolated who₁ others₁ mine act p devices₁ w₁ past₁ es₁ hn₁ hf₁ c x id d hx₁ hr hc hg₁ hu
    (fun k hk => (hm k hk).1) ho₁ ha₁).1
  have h2 := (C70_isolated who₂ others₂ mine act p devices₂ w₂ past₂ es₂ hn₂ hf₂ c x id d hx₂ hr hc hg₂ hu
    (fun k hk => (hm k hk).2) ho₂ ha₂).1
  rw [h1, h2, ← he, ← hw]

/-! ### An instance, and why the handlers must be separate -/

/-- Vendor request 5 to the device, IN, 2 bytes. -/
def vendorIn (seq : UInt32) : Bytes :=
  wireCmd (.submit ⟨1, seq, 65538, 1, 0⟩ 0 2 0 0 0 [0xC0, 5, 0, 0, 0, 0, 2, 0] [] [])

/-- Handler 4 of device "1-2" counts its calls. -/
def counting : Env Nat where
  iface _ _ _ _ _ _ n := (.err .other, n)
  dev _ _ _ _ n := (.ok [UInt8.ofNat n], n + 1)

/-- Client 0 has imported "1-2" and goes on to use it. -/
def client0 : Stream := ⟨wireCmd (.reqImport 0 busB) ++ vendorIn 1 ++ vendorIn 2, .unexpectedEof⟩

/-- Client 1 imports "1-1", uses it, and makes one of its handlers panic. -/
def client1 : Stream := ⟨wireCmd (.reqImport 0 busA)
  ++ wireCmd (.submit ⟨1, 1, 65538, 1, 1⟩ 0 4 0 0 0 [0, 0, 0, 0, 0, 0, 0, 0] [] [])
  ++ wireCmd (.submit ⟨1, 2, 65538, 1, 3⟩ 0 4 0 0 0 [0, 0, 0, 0, 0, 0, 0, 0] [] []), .unexpectedEof⟩

def isolationPast : List (Event (Nat × Nat)) :=
  [.connect 0 client0, .connect 1 client1, .iterate 0 .full, .iterate 1 .full]

/-- Between the client's requests others use, crash, add and remove devices. -/
def isolationHistory : List (HostedEvent Nat Nat) :=
  [.server (.iterate 1 .full), .server (.iterate 0 .full), .server (.iterate 1 .full), .app 5,
   .server (.removeDevice [49, 45, 50]), .server (.user (· + 100)),
   .server (.addDevice { devA with busId := [57] }), .server (.iterate 0 .full)]

def justB : HandlerId → Bool := fun k => k = .dev 4

def resultBytes : Outcome Bytes → Bytes
  | .ok b => b
  | _ => []

/-- The hypotheses of `C70_isolated` hold here, and the client is sent its own handler's answers, 0
and then (the application having added 5) 6, while the other device's handler panics. -/
example :
    let env := beside justB Samples.env counting
    let s := (Sys.init [devA, devB] ⟨(0, 0), fun _ => false, fun _ => false⟩).run env release isolationPast
    (s.conns 0).map (fun x => (x.status, x.current, x.input)) =
      some (.running, some [49, 45, 50], ⟨vendorIn 1 ++ vendorIn 2, .unexpectedEof⟩) ∧
    (amGet [49, 45, 50] s.shared.used).map Device.busId = some [49, 45, 50] ∧
    OnlyUrbs release ⟨vendorIn 1 ++ vendorIn 2, .unexpectedEof⟩ ∧
    handlersOf devB = [.dev 4] ∧ (∀ k ∈ handlersOf devA, justB k = false) ∧
    (let s' := s.run env release (isolationHistory.map (HostedEvent.event (· + ·)))
     (s'.conns 0).map (fun y => y.output.drop 320) = some (
       (resultBytes (Resp.toBytes release (usbipRetSubmitSuccess ⟨3, 1, 65538, 1, 0⟩ 0 0 [0] [])))
       ++ (resultBytes (Resp.toBytes release (usbipRetSubmitSuccess ⟨3, 2, 65538, 1, 0⟩ 0 0 [6] [])))) ∧
     s'.shared.world.user = (101, 7) ∧ s'.shared.world.ifPoisoned 1 = true) := by
  refine ⟨by decide +kernel, by decide +kernel, ?_, by decide +kernel, by decide +kernel, by decide +kernel⟩
  refine urbs_cons (cmd := .submit ⟨1, 1, 65538, 1, 0⟩ 0 2 0 0 0 [0xC0, 5, 0, 0, 0, 0, 2, 0] [] [])
    (rest := ⟨vendorIn 2, .unexpectedEof⟩) (by decide +kernel) (.inl ⟨_, _, _, _, _, _, _, _, _, rfl⟩) ?_
  refine urbs_cons (cmd := .submit ⟨1, 2, 65538, 1, 0⟩ 0 2 0 0 0 [0xC0, 5, 0, 0, 0, 0, 2, 0] [] [])
    (rest := ⟨[], .unexpectedEof⟩) (by decide +kernel) (.inl ⟨_, _, _, _, _, _, _, _, _, rfl⟩) ?_
  exact urbs_end (e := .unexpectedEof) (by decide +kernel)

/-- C70 needs the devices to have different handler objects: with one object in two devices, what
another client does on the other device changes what the client is sent. -/
theorem C70_needs_separate :
    ∃ (past es : List (Event Nat)),
      let s := (Sys.init [devB, { devB with busId := [57] }] world).run counting release past
      (s.conns 0).map (fun x => (x.status, x.current)) = some (.running, some [49, 45, 50]) ∧
      (∀ e ∈ es, ∃ w, e = .iterate 0 w ∨ e = .iterate 1 w) ∧
      ((s.run counting release es).conns 0).map Conn.output ≠
        ((s.run counting release (es.filter (fun e => match e with | .iterate c _ => c = 0 | _ => false))).conns 0).map
          Conn.output := by
  refine ⟨[.connect 0 client0, .connect 1 ⟨wireCmd (.reqImport 0 ([57] ++ List.replicate 31 0)) ++ vendorIn 1, .unexpectedEof⟩,
    .iterate 0 .full, .iterate 1 .full], [.iterate 1 .full, .iterate 0 .full], by decide +kernel, ?_, by decide +kernel⟩
  intro e he
  simp only [List.mem_cons, List.not_mem_nil, or_false] at he
  rcases he with rfl | rfl
  · exact ⟨_, .inr rfl⟩
  · exact ⟨_, .inl rfl⟩

end Usbip
