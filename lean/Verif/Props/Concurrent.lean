import Verif.Props.Locks
import Verif.Props.Server
import Verif.Lemmas.Realise
/-!
# Concurrent executions: C22, C23 and C35 for the lock-level model
-/

namespace Usbip
open Spec Samples

/-- C35: whatever is true of all one-at-a-time histories is true of every concurrent execution at
every moment at which nothing is in flight. -/
theorem C35_transfer {σ} (env : Env σ) (p : Profile) (devices : List Device) (w : World σ)
    (P : Sys σ → Prop) (hP : ∀ es, P ((Sys.init devices w).run env p es))
    (ls : List (Label σ)) (s : Cfg σ) (h : Cfg.Reach env p (Cfg.init devices w) ls s)
    (hidle : ∀ t, s.flights t = none) : P ⟨s.shared, s.conns⟩ := by
  obtain ⟨h1, h2⟩ := C35_atomic env p devices w ls s h hidle
  rw [h1, h2]
  exact hP _

/-- C35, the other direction: every one-at-a-time history is the outcome of an execution of the
lock-level programs, with the history's events as effects (apart from events that change nothing
because they cannot happen).  So nothing is proved about the lock-level model by its not being able
to run. -/
theorem C35_realised {σ} (env : Env σ) (p : Profile) (devices : List Device) (w : World σ)
    (es : List (Event σ)) :
    ∃ ls s, Cfg.Reach env p (Cfg.init devices w) ls s ∧ (∀ t, s.flights t = none) ∧
      s.shared = ((Sys.init devices w).run env p es).shared ∧
      s.conns = ((Sys.init devices w).run env p es).conns ∧
      (ls.filterMap Label.event).Sublist es := by
  have gen : ∀ (es : List (Event σ)) (S : Sys σ), ∃ ls, Cfg.Reach env p (Cfg.quiet S.shared S.conns) ls
      (Cfg.quiet (S.run env p es).shared (S.run env p es).conns) ∧ (ls.filterMap Label.event).Sublist es := by
    intro es
    induction es with
    | nil => intro S; exact ⟨[], .refl, .slnil⟩
    | cons e es ih =>
      intro S
      obtain ⟨l1, r1, h1⟩ := realise_step env p S e
      obtain ⟨l2, r2, h2⟩ := ih (S.step env p e)
      refine ⟨l1 ++ l2, r1.trans r2, ?_⟩
      rw [List.filterMap_append]
      rcases h1 with h1 | ⟨h1, _⟩
      · rw [h1]; exact h2.cons₂ e
      · subst h1; exact h2.cons e
  obtain ⟨ls, hr, hs⟩ := gen es (Sys.init devices w)
  exact ⟨ls, _, hr, fun _ => rfl, rfl, rfl, hs⟩

/-- C22 for concurrent executions: at every moment, two connections that are between requests never
have the same device, whatever the others are in the middle of. -/
theorem C22_concurrent {σ} (env : Env σ) (p : Profile) (devices : List Device) (w : World σ)
    (ls : List (Label σ)) (s : Cfg σ) (h : Cfg.Reach env p (Cfg.init devices w) ls s)
    (hd : (devices.map Device.busId).Nodup)
    (hf : Fresh env p (Sys.init devices w) (ls.filterMap Label.event)) (c₁ c₂ : Nat) (x₁ x₂ : Conn)
    (id : Bytes) (i₁ : s.idle c₁) (i₂ : s.idle c₂) (e₁ : s.conns c₁ = some x₁)
    (e₂ : s.conns c₂ = some x₂) (r₁ : x₁.status = .running) (r₂ : x₂.status = .running)
    (q₁ : x₁.current = some id) (q₂ : x₂.current = some id) : c₁ = c₂ := by
  obtain ⟨_, hc, _⟩ := C35_observed env p devices w ls s h
  refine C22_exclusive env p devices w _ hd hf c₁ c₂ id ⟨x₁, ?_, r₁, q₁⟩ ⟨x₂, ?_, r₂, q₂⟩
  · rw [← hc c₁ i₁]; exact e₁
  · rw [← hc c₂ i₂]; exact e₂

/-- C23 for concurrent executions: at every moment at which nobody is changing the tables, the
devices in them are exactly those given to the server and not removed again. -/
theorem C23_concurrent {σ} (env : Env σ) (p : Profile) (devices : List Device) (w : World σ)
    (ls : List (Label σ)) (s : Cfg σ) (h : Cfg.Reach env p (Cfg.init devices w) ls s)
    (hd : (devices.map Device.busId).Nodup)
    (hf : Fresh env p (Sys.init devices w) (ls.filterMap Label.event))
    (hw : ∀ t f l, s.flights t = some f → f.held l ≠ some .w) :
    (onServer s.shared).Perm (ledger env p (Sys.init devices w) devices (ls.filterMap Label.event)) := by
  obtain ⟨_, _, hu, ha⟩ := C35_observed env p devices w ls s h
  have := C23_conserved env p devices w _ hd hf
  unfold onServer at this ⊢
  rwa [hu (fun t f ht => hw t f .used ht), ha (fun t f ht => hw t f .avail ht)]

/-- C22 for concurrent executions: a connection between requests that holds a device has it
recorded, unless somebody is changing the table of imported devices. -/
theorem C22_concurrent_recorded {σ} (env : Env σ) (p : Profile) (devices : List Device) (w : World σ)
    (ls : List (Label σ)) (s : Cfg σ) (h : Cfg.Reach env p (Cfg.init devices w) ls s)
    (hd : (devices.map Device.busId).Nodup)
    (hf : Fresh env p (Sys.init devices w) (ls.filterMap Label.event))
    (hw : ∀ t f, s.flights t = some f → f.held .used ≠ some .w) (c : Nat) (x : Conn) (id : Bytes)
    (hi : s.idle c) (hx : s.conns c = some x) (hr : x.status = .running) (hq : x.current = some id) :
    ∃ d, d.busId = id ∧ amGet id s.shared.used = some d := by
  obtain ⟨_, hc, hu, _⟩ := C35_observed env p devices w ls s h
  rw [hu hw]
  exact ((C22_recorded env p devices w _ hd hf).2 c id ⟨x, by rw [← hc c hi]; exact hx, hr, hq⟩).1

theorem fresh_of_no_add {σ} (env : Env σ) (p : Profile) (es : List (Event σ)) :
    (∀ e ∈ es, ∀ d, e ≠ .addDevice d) → ∀ S : Sys σ, Fresh env p S es := by
  induction es with
  | nil => intro _ _; trivial
  | cons e es ih =>
    intro h S
    refine ⟨?_, ih (fun e' h' => h e' (List.mem_cons_of_mem _ h')) _⟩
    cases e <;> first | trivial | exact absurd rfl (h _ (List.mem_cons_self ..) _)

/-- The hypotheses of the theorems above can be met with a device in a client's hands. -/
example : ∃ ls s, Cfg.Reach env dev (Cfg.init [devA, devB] world) ls s ∧ (∀ t, s.flights t = none) ∧
    (s.conns 0).map (fun x => (x.status, x.current)) = some (.running, some devA.busId) ∧
    s.shared.available.map Device.busId = [devB.busId] ∧
    Fresh env dev (Sys.init [devA, devB] world) (ls.filterMap Label.event) := by
  obtain ⟨ls, s, h, hn, hs, hc, hsub⟩ := C35_realised env dev [devA, devB] world
    [.connect 0 (importStream busA), .iterate 0 .full]
  refine ⟨ls, s, h, hn, by rw [hc]; decide +kernel, by rw [hs]; decide +kernel,
    fresh_of_no_add env dev _ (fun e he d hd => ?_) _⟩
  have := hsub.subset he
  subst hd
  simp at this

end Usbip
