import Verif.Lemmas.Main
import Verif.Props.Listen
import Verif.Props.Programs
import Verif.Props.Sharing
/-!
# The example programs as processes: C85
-/

namespace Usbip
open Spec Samples

theorem keyboardMain_ok (p : Profile) : ∃ d, keyboardProgram p = some (Sys.init [d] (freshWorld Keyboard.new)) ∧
    keyboardMain p = .ok (.feeding keyboardObj keyboardFeed d Keyboard.new) := by
  obtain ⟨d, _, _, h1, h2, _⟩ := exampleKeyboard_ok p
  exact ⟨d, h2, by unfold keyboardMain; rw [h1]; rfl⟩

theorem serialMain_ok (p : Profile) : ∃ d, serialProgram p = some (Sys.init [d] (freshWorld Cdc.new)) ∧
    serialMain p = .ok (.feeding serialObj serialFeed d Cdc.new) := by
  obtain ⟨d, _, _, h1, h2, _⟩ := exampleSerial_ok p
  exact ⟨d, h2, by unfold serialMain; rw [h1]; rfl⟩

/-- C85: the keyboard and the serial example always get to their main loop; the host example does unless a
device of the host is defective (see C77). -/
theorem C85_starts {σ} (p : Profile) (devices : List RusbEntry) (env : Env σ) (w : World σ) :
    (∃ P, keyboardMain p = .ok P) ∧ (∃ P, serialMain p = .ok P) ∧
    (hostMain p (some devices) env w = .panic ↔
      ∃ h ∈ (passed (fun (_ : Unit) _ => (true, ())) () devices).filterMap usable, Defective h) ∧
    ((∀ h ∈ (passed (fun (_ : Unit) _ => (true, ())) () devices).filterMap usable, ¬ Defective h) →
      ∃ P, hostMain p (some devices) env w = .ok P) ∧
    ∃ P, hostMain p none env w = .ok P := by
  obtain ⟨_, _, h1⟩ := keyboardMain_ok p
  obtain ⟨_, _, h2⟩ := serialMain_ok p
  obtain ⟨h3, h4, h5⟩ := C77_rusb p devices (fun (_ : Unit) _ => (true, ())) ()
  refine ⟨⟨_, h1⟩, ⟨_, h2⟩, ?_, ?_, ?_⟩
  · rw [← h3]
    unfold hostMain
    cases newFromHostWithFilter p (some devices) (fun (_ : Unit) _ => (true, ())) () <;> simp [bind, Outcome.bind, pure]
  · intro h
    obtain ⟨ds, hd, _⟩ := h4 h
    exact ⟨_, by unfold hostMain; rw [hd]; rfl⟩
  · exact ⟨_, by unfold hostMain; rw [newFromHostWithFilter]; rfl⟩

/-- C85: whatever clients do, the serial example never ends, and neither does the host example. -/
theorem C85_runs {σ} (p : Profile) (devices : Option (List RusbEntry)) (env : Env σ) (w : World σ) :
    (∀ P, serialMain p = .ok P → ∀ evs, ∃ s, P.run p evs = some s) ∧
    (∀ P, hostMain p devices env w = .ok P → ∀ evs, ∃ s, P.run p evs = some s) := by
  constructor
  · intro P hP evs
    obtain ⟨d, h1, h2⟩ := serialMain_ok p
    rw [h2] at hP
    cases hP
    obtain ⟨es, ⟨_, h⟩ | ⟨s, h, _⟩⟩ := main_program serialObj serialFeed d Cdc.new p evs
    · obtain ⟨s, hs⟩ := C60_serial p es
      rw [h1, h] at hs
      simp at hs
    · exact ⟨s, h⟩
  · intro P hP evs
    have hl : P.lock = none := by
      unfold hostMain at hP
      cases h : newFromHostWithFilter p devices (fun (_ : Unit) _ => (true, ())) () with
      | ok ds => rw [h] at hP; cases hP; rfl
      | _ => rw [h] at hP; cases hP
    have gen : ∀ s, ∃ s', evs.foldl (P.step p) (some s) = some s' := by
      induction evs with
      | nil => intro s; exact ⟨s, rfl⟩
      | cons e evs ih =>
        intro s
        rw [List.foldl_cons, P.step_some, if_neg (by cases e <;> simp [Program.stops, hl])]
        exact ih _
    exact gen _

/-- C85: the keyboard example has ended if and only if its main loop has come round after a client sent the
keyboard a control request other than the two it knows. -/
theorem C85_keyboard_ends (p : Profile) (P : Program (Unit × Keyboard)) (hP : keyboardMain p = .ok P)
    (evs : List MainEvent) :
    P.run p evs = none ↔
    ∃ es1 c w es2 s j ep st, evs = es1 ++ .iterate c w :: es2 ∧ .tick ∈ es2 ∧ P.run p es1 = some s ∧
      job p s.net.sys c = some j ∧ j.urb 0 s.net.sys.shared.world = some (ep, st) ∧
      ep.address.toNat % 128 = 0 ∧ ¬ KeyboardKnows st := by
  obtain ⟨d, h1, h2⟩ := keyboardMain_ok p
  rw [h2] at hP
  cases hP
  have := main_ended_iff keyboardObj keyboardFeed d Keyboard.new p evs (Proc.init [d] (freshWorld Keyboard.new)) rfl
  simp only [keyboard_panics_iff] at this
  exact this

/-- C85: as long as the task that serves has not bound its address, and for good if that fails, the program
goes on, feeds its handler once a second, and serves nobody: there is no connection, and clients that have
tried to connect have been refused. -/
theorem C85_unbound {σ} (P : Program σ) (p : Profile) (evs : List MainEvent)
    (hl : ∀ h, P.lock = some h → P.world.ifPoisoned h = false) (hb : firstBind evs ≠ some true) :
    ∃ s, P.run p evs = some s ∧ (∀ c, s.net.sys.conns c = none) ∧
      (∀ c, .dial c ∈ evs → s.front c = .refused) ∧ (∀ c, .dial c ∉ evs → s.front c = .unknown) ∧
      s.net.sys.shared = { (Sys.init P.devices P.world).shared with
        world := { P.world with user := fed P.feed (ticks evs) P.world.user } } := by
  have gen : ∀ (evs : List MainEvent) (s : Proc σ), (∀ h, P.lock = some h → s.net.sys.shared.world.ifPoisoned h = false) →
      (s.calls 0 = none ∧ firstBind evs ≠ some true ∨ s.calls 0 = some .panicked) → (∀ c, s.net.sys.conns c = none) →
      (∀ c, s.front c = .refused ∨ s.front c = .unknown) →
      ∃ s', evs.foldl (P.step p) (some s) = some s' ∧ (∀ c, s'.net.sys.conns c = none) ∧
        (∀ c, (.dial c ∈ evs ∨ s.front c = .refused → s'.front c = .refused) ∧ (.dial c ∉ evs → s'.front c = s.front c)) ∧
        s'.net.sys.shared = { s.net.sys.shared with
          world := { s.net.sys.shared.world with user := fed P.feed (ticks evs) s.net.sys.shared.world.user } } := by
    intro evs
    induction evs with
    | nil =>
      intro s _ _ hc hf
      exact ⟨s, rfl, hc, fun c => ⟨by simp, fun _ => rfl⟩, rfl⟩
    | cons e evs ih =>
      intro s hl hb hc hf
      have hs : P.stops s e = false := by
        cases e <;> simp only [Program.stops]
        cases hk : P.lock with
        | none => rfl
        | some h => exact hl h hk
      rw [List.foldl_cons, P.step_some, hs]
      simp only [Bool.false_eq_true, if_false]
      have same : s.step P.env p (e.proc P.feed) = s → (∀ c, e ≠ .dial c) → e ≠ .tick → (∀ b, e ≠ .bind b) →
          ∃ s', evs.foldl (P.step p) (some (s.step P.env p (e.proc P.feed))) = some s' ∧ (∀ c, s'.net.sys.conns c = none) ∧
          (∀ c, (.dial c ∈ e :: evs ∨ s.front c = .refused → s'.front c = .refused) ∧ (.dial c ∉ e :: evs → s'.front c = s.front c)) ∧
          s'.net.sys.shared = { s.net.sys.shared with
            world := { s.net.sys.shared.world with user := fed P.feed (ticks (e :: evs)) s.net.sys.shared.world.user } } := by
        intro h1 h2 h3 h4
        rw [h1]
        obtain ⟨s', g1, g2, g3, g4⟩ := ih s hl (by
          rcases hb with ⟨a, b⟩ | h
          · refine .inl ⟨a, ?_⟩
            cases e <;> first | exact absurd rfl (h4 _) | exact b
          · exact .inr h) hc hf
        refine ⟨s', g1, g2, fun c => ?_, ?_⟩
        · have := g3 c
          simpa [show ¬ (MainEvent.dial c = e) from fun h => h2 c h.symm] using this
        · rw [g4]
          cases e <;> first | exact absurd rfl h3 | rfl
      cases e with
      | bind b =>
        have hst : s.step P.env p (.serve 0 b) = { s with calls := upd s.calls 0 (some .panicked) } ∨
            s.step P.env p (.serve 0 b) = s ∧ s.calls 0 = some .panicked := by
          rcases hb with ⟨h1, h2⟩ | h
          · left
            cases b with
            | true => simp [firstBind] at h2
            | false => simp only [Proc.step, h1]; rfl
          · right
            exact ⟨by simp only [Proc.step, h], h⟩
        simp only [MainEvent.proc]
        have fin : ∀ s1 : Proc σ, s1.net = s.net → s1.front = s.front → s1.calls 0 = some .panicked →
            ∃ s', evs.foldl (P.step p) (some s1) = some s' ∧ (∀ c, s'.net.sys.conns c = none) ∧
            (∀ c, (.dial c ∈ MainEvent.bind b :: evs ∨ s.front c = .refused → s'.front c = .refused) ∧ (.dial c ∉ MainEvent.bind b :: evs → s'.front c = s.front c)) ∧
            s'.net.sys.shared = { s.net.sys.shared with
              world := { s.net.sys.shared.world with user := fed P.feed (ticks (MainEvent.bind b :: evs)) s.net.sys.shared.world.user } } := by
          intro s1 e1 e2 e3
          obtain ⟨s', g1, g2, g3, g4⟩ := ih s1 (by rw [e1]; exact hl) (.inr e3) (by rw [e1]; exact hc) (by rw [e2]; exact hf)
          refine ⟨s', g1, g2, fun c => ?_, ?_⟩
          · have := g3 c
            rw [e2] at this
            simpa using this
          · rw [g4, e1]; rfl
        rcases hst with h | ⟨h, hk⟩
        · rw [h]; exact fin _ rfl rfl (upd_self s.calls 0 (some .panicked))
        · rw [h]; exact fin _ rfl rfl hk
      | dial c0 =>
        have hst : (s.step P.env p (.dial 0 c0)).net = s.net ∧ (s.step P.env p (.dial 0 c0)).calls = s.calls ∧
            ∀ c, (s.step P.env p (.dial 0 c0)).front c = if c = c0 then .refused else s.front c := by
          have hk : s.calls 0 = none ∨ s.calls 0 = some .panicked := hb.imp And.left id
          rcases hf c0 with h | h
          · have : s.step P.env p (.dial 0 c0) = s := by
              rcases hk with hk | hk <;> simp only [Proc.step, hk, h]
            rw [this]
            refine ⟨rfl, rfl, fun c => ?_⟩
            split
            · rename_i e; rw [e, h]
            · rfl
          · have : s.step P.env p (.dial 0 c0) = { s with front := upd s.front c0 .refused } := by
              rcases hk with hk | hk <;> simp only [Proc.step, hk, h]
            rw [this]
            exact ⟨rfl, rfl, fun c => rfl⟩
        simp only [MainEvent.proc]
        generalize s.step P.env p (.dial 0 c0) = s1 at hst
        obtain ⟨e1, e2, e3⟩ := hst
        obtain ⟨s', g1, g2, g3, g4⟩ := ih s1 (by rw [e1]; exact hl) (by rw [e2]; exact hb) (by rw [e1]; exact hc)
          (fun c => by rw [e3]; split; exact .inl rfl; exact hf c)
        refine ⟨s', g1, g2, fun c => ?_, ?_⟩
        · have := g3 c
          rw [e3] at this
          by_cases hcc : c = c0
          · subst hcc; simpa using this.1
          · simpa [hcc] using this
        · rw [g4, e1]; rfl
      | acceptOk =>
        refine same ?_ (by simp) (by simp) (by simp)
        simp only [MainEvent.proc, Proc.step]
        rcases hb with ⟨h, _⟩ | h <;> rw [h]
      | acceptErr => exact same rfl (by simp) (by simp) (by simp)
      | arrive c bs =>
        refine same ?_ (by simp) (by simp) (by simp)
        simp only [MainEvent.proc, Proc.step]
        rcases hf c with h | h <;> rw [h]
      | hangup c er =>
        refine same ?_ (by simp) (by simp) (by simp)
        simp only [MainEvent.proc, Proc.step]
        rcases hf c with h | h <;> rw [h]
      | iterate c w =>
        refine same ?_ (by simp) (by simp) (by simp)
        simp only [MainEvent.proc, Proc.step, Net.step]
        rw [if_neg (by unfold Net.ready; rw [hc c]; simp)]
      | tick =>
        obtain ⟨s', g1, g2, g3, g4⟩ := ih (s.step P.env p (.user P.feed)) hl hb hc hf
        refine ⟨s', g1, g2, fun c => ?_, ?_⟩
        · have := g3 c
          simpa [Proc.step] using this
        · rw [g4]
          simp only [Proc.step, Net.step, Sys.step, World.used, ticks, List.countP_cons, if_true, fed]
  obtain ⟨s, h1, h2, h3, h4⟩ := gen evs (Proc.init P.devices P.world) hl (.inl ⟨rfl, hb⟩) (fun _ => rfl) (fun _ => .inr rfl)
  exact ⟨s, h1, h2, fun c h => (h3 c).1 (.inl h), fun c h => (h3 c).2 h, h4⟩

/-- C85: once the task has bound its address it listens as long as the process lives, whatever `accept` or the
connections come to; and everybody who connects after that gets in or waits for it. -/
theorem C85_bound {σ} (P : Program σ) (p : Profile) (pre post : List MainEvent) (s : Proc σ)
    (hb : firstBind pre = none) (hs : P.run p (pre ++ .bind true :: post) = some s) :
    (∃ q, s.calls 0 = some (.listening q)) ∧
    ∀ c, .dial c ∈ post → .dial c ∉ pre → s.front c = .accepted ∨ ∃ b e, s.front c = .waiting b e := by
  have hsplit := hs
  unfold Program.run at hsplit
  rw [List.foldl_append, List.foldl_cons] at hsplit
  cases h1 : pre.foldl (P.step p) (some (Proc.init P.devices P.world)) with
  | none => rw [h1] at hsplit; rw [show P.step p none (.bind true) = none from rfl, P.foldl_none] at hsplit; simp at hsplit
  | some s1 =>
    rw [h1] at hsplit
    have hpre := P.foldl_some p pre _ s1 h1
    have hpost := P.foldl_some p post _ s hsplit
    have hcalls : ∀ (evs : List MainEvent) (s0 : Proc σ), firstBind evs = none → s0.calls 0 = none →
        (s0.run P.env p (evs.map (MainEvent.proc P.feed))).calls 0 = none := by
      intro evs
      induction evs with
      | nil => intro s0 _ h; exact h
      | cons e evs ih =>
        intro s0 hb h
        refine ih _ (by cases e <;> first | exact hb | simp [firstBind] at hb) ?_
        refine ((calls_back P.env p s0 0 (e.proc P.feed)).2).mpr ⟨h, fun b he => ?_⟩
        cases e <;> simp [MainEvent.proc, firstBind] at he hb
    have hc1 : s1.calls 0 = none := by rw [hpre]; exact hcalls pre _ hb rfl
    have hfront : ∀ (evs : List MainEvent) (s0 : Proc σ) (c : Nat), .dial c ∉ evs → s0.front c = .unknown → PInv s0 →
        (s0.run P.env p (evs.map (MainEvent.proc P.feed))).front c = .unknown := by
      intro evs
      induction evs with
      | nil => intro s0 c _ h _; exact h
      | cons e evs ih =>
        intro s0 c hn h hI
        refine ih _ c (fun hm => hn (List.mem_cons_of_mem _ hm)) ?_ (hI.step _)
        cases e with
        | dial c' =>
          have hne : c ≠ c' := by rintro rfl; exact hn (List.mem_cons_self ..)
          simp only [MainEvent.proc, Proc.step]
          split
          · exact (upd_ne _ _ hne).trans h
          · exact (upd_ne _ _ hne).trans h
          · exact h
        | acceptOk =>
          simp only [MainEvent.proc, Proc.step]
          split
          · rename_i c' q hk
            split
            · rename_i hw
              have hne : c ≠ c' := by rintro rfl; rw [h] at hw; simp at hw
              exact (upd_ne _ _ hne).trans h
            · exact h
          · exact h
        | bind b => simp only [MainEvent.proc, Proc.step]; split <;> exact h
        | acceptErr => exact h
        | arrive c' bs =>
          simp only [MainEvent.proc, Proc.step]
          split
          · rename_i hw
            have hne : c ≠ c' := by rintro rfl; rw [h] at hw; simp at hw
            exact (upd_ne _ _ hne).trans h
          · exact h
          · exact h
        | hangup c' bs =>
          simp only [MainEvent.proc, Proc.step]
          split
          · rename_i hw
            have hne : c ≠ c' := by rintro rfl; rw [h] at hw; simp at hw
            exact (upd_ne _ _ hne).trans h
          · exact h
          · exact h
        | iterate c' w => exact h
        | tick => exact h
    have hlist : ∀ (evs : List MainEvent) (s0 : Proc σ) (q : List Nat), s0.calls 0 = some (.listening q) →
        ∃ q', (s0.run P.env p (evs.map (MainEvent.proc P.feed))).calls 0 = some (.listening q') := by
      intro evs s0 q h
      refine calls_run P.env p s0 0 _ q h ?_ ?_ <;>
      · intro hm
        obtain ⟨e, _, he⟩ := List.mem_map.mp hm
        cases e <;> simp [MainEvent.proc] at he
    have hin : ∀ (evs : List MainEvent) (s0 : Proc σ) (c : Nat),
        (s0.front c = .accepted ∨ ∃ b e, s0.front c = .waiting b e) →
        ((s0.run P.env p (evs.map (MainEvent.proc P.feed))).front c = .accepted ∨
          ∃ b e, (s0.run P.env p (evs.map (MainEvent.proc P.feed))).front c = .waiting b e) := by
      intro evs
      induction evs with
      | nil => intro s0 c h; exact h
      | cons e evs ih =>
        intro s0 c h
        refine ih _ c ?_
        have put : ∀ (c' : Nat) (v : Dialled), (v = .accepted ∨ ∃ b e, v = .waiting b e) →
            (upd s0.front c' v c = .accepted ∨ ∃ b e, upd s0.front c' v c = .waiting b e) := by
          intro c' v hv
          by_cases e : c = c'
          · subst e; rw [upd_self]; exact hv
          · rw [upd_ne _ _ e]; exact h
        cases e with
        | dial c' =>
          simp only [MainEvent.proc, Proc.step]
          split
          · exact put _ _ (.inr ⟨_, _, rfl⟩)
          · rename_i hu _
            have hne : c ≠ c' := by
              rintro rfl
              rename_i hu
              rw [hu] at h; simp at h
            dsimp only
            rw [upd_ne _ _ hne]; exact h
          · exact h
        | acceptOk =>
          simp only [MainEvent.proc, Proc.step]
          split
          · split
            · exact put _ _ (.inl rfl)
            · exact h
          · exact h
        | bind b => simp only [MainEvent.proc, Proc.step]; split <;> exact h
        | acceptErr => exact h
        | arrive c' bs =>
          simp only [MainEvent.proc, Proc.step]
          split
          · exact put _ _ (.inr ⟨_, _, rfl⟩)
          · exact h
          · exact h
        | hangup c' bs =>
          simp only [MainEvent.proc, Proc.step]
          split
          · exact put _ _ (.inr ⟨_, _, rfl⟩)
          · exact h
          · exact h
        | iterate c' w => exact h
        | tick => exact h
    have hl2 : (s1.step P.env p (.serve 0 true)).calls 0 = some (.listening []) := by
      simp only [Proc.step, hc1]; exact upd_self ..
    refine ⟨by rw [hpost]; exact hlist post _ [] hl2, ?_⟩
    intro c hd hn
    have hI : PInv s1 := by rw [hpre]; exact (PInv.init _ _).run _
    have hu : s1.front c = .unknown := by rw [hpre]; exact hfront pre _ c hn rfl (PInv.init _ _)
    have hu2 : (s1.step P.env p (.serve 0 true)).front c = .unknown := by
      simp only [Proc.step, hc1]; exact hu
    have hI2 : PInv (s1.step P.env p (.serve 0 true)) := hI.step _
    rw [hpost]
    have e0 : s1.step P.env p (MainEvent.proc P.feed (.bind true)) = s1.step P.env p (.serve 0 true) := rfl
    rw [e0]
    obtain ⟨q0, hl3⟩ : ∃ q, (s1.step P.env p (.serve 0 true)).calls 0 = some (.listening q) := ⟨_, hl2⟩
    generalize s1.step P.env p (.serve 0 true) = s2 at hl3 hu2 hI2
    clear hpost hsplit hs h1 hpre hc1 hI hu hl2 e0
    induction post generalizing s2 q0 with
    | nil => simp at hd
    | cons e post ih =>
      by_cases he : e = .dial c
      · subst he
        refine hin post _ c (.inr ⟨[], none, ?_⟩)
        simp only [MainEvent.proc, Proc.step, hl3, hu2]
        exact upd_self ..
      · obtain ⟨q1, h1⟩ := hlist [e] s2 q0 hl3
        exact ih (by rcases List.mem_cons.mp hd with h | h; exact absurd h.symm he; exact h)
          q1 (s2.step P.env p (e.proc P.feed)) h1 (hfront [e] s2 c (by simpa using fun h => he h.symm) hu2 hI2) (hI2.step _)

/-! ## What clients get -/

theorem polled_replies (p : Profile) (d : Device)
    (hS : keyboardProgram p = some (Sys.init [d] (freshWorld Keyboard.new))) (es : List ProgEvent) :
    polled p es = (progReplies keyboardObj keyboardFeed p (Sys.init [d] (freshWorld Keyboard.new)) es).filter
      (fun r => decide (DataIn r.ep)) := by
  unfold polled keyboardReplies
  rw [hS]
  dsimp only
  rw [progReplies_eq keyboardObj keyboardFeed Keyboard.push keyOne ProgEvent.keyboard keyboardFeed_push
    (fun _ _ => rfl) (fun _ _ => rfl) (fun _ => rfl) rfl p es]

theorem received_replies (p : Profile) (d : Device)
    (hS : serialProgram p = some (Sys.init [d] (freshWorld Cdc.new))) (es : List ProgEvent) :
    receivedAll p es = progReplies serialObj serialFeed p (Sys.init [d] (freshWorld Cdc.new)) es ∧
    received p es = (progReplies serialObj serialFeed p (Sys.init [d] (freshWorld Cdc.new)) es).filter
      (fun r => decide (BulkIn r.ep)) := by
  unfold received receivedAll serialReplies serialAll
  rw [hS]
  dsimp only
  rw [progReplies_eq serialObj serialFeed Cdc.write [97] ProgEvent.serial serialFeed_write
    (fun _ _ => rfl) (fun _ _ => rfl) (fun _ => rfl) rfl p es]
  exact ⟨rfl, rfl⟩

/-- The next iteration of a connection with a complete packet. -/
theorem main_iterate {σ} (P : Program σ) (p : Profile) (evs : List MainEvent) (s : Proc σ) (c : Nat) (w : WriteRes)
    (hs : P.run p evs = some s) (hr : s.net.ready p c = true) :
    ∃ s', P.run p (evs ++ [.iterate c w]) = some s' ∧ s'.net.sys = s.net.sys.step P.env p (.iterate c w) := by
  refine ⟨s.step P.env p (.iterate c w), ?_, ?_⟩
  · unfold Program.run at hs ⊢
    rw [List.foldl_append, hs]
    rfl
  · simp only [Proc.step, Net.step, hr, if_true]

/-- A packet that has arrived completely does not have to be waited for. -/
theorem ready_of_parse {σ} (p : Profile) (n : Net σ) (c : Nat) (x : Conn) (r : Request) (rest : Bytes)
    (hx : n.sys.conns c = some x) (hp : parse p.debugAssertions x.input.bytes = .request r rest) :
    n.ready p c = true := by
  unfold Net.ready
  rw [hx]
  dsimp only
  cases n.ended c with
  | some _ => rfl
  | none =>
    dsimp only
    have he := early_readCommand p x.input.bytes
    cases hd : (readCommand p : Rd Arrived Cmd) ⟨x.input.bytes⟩ with
    | diverge =>
      rw [hd] at he
      have h := parse_read p x.input.bytes x.input.fin
      rw [hp] at h
      obtain ⟨cmd, h1, _⟩ := h
      rw [show (readCommand p : Rd Stream Cmd) ⟨x.input.bytes, x.input.fin⟩ = _ from he x.input.fin] at h1
      simp at h1
    | _ => rfl

/-- C85: C78 for the process, with clients that connect, send and react as they like: the reports received
from the keyboard are the beginning of "key 1 pressed, released", once for every second the main loop has
been running (if all polls were made in IN direction and answered). -/
theorem C85_typing (p : Profile) (P : Program (Unit × Keyboard)) (hP : keyboardMain p = .ok P) (evs : List MainEvent)
    (s : Proc (Unit × Keyboard)) (hs : P.run p evs = some s)
    (hall : ∀ r ∈ replies P p evs, DataIn r.ep → r.direction = 1 ∧ r.write = .full) :
    ∃ m, (((replies P p evs).filter (fun r => decide (DataIn r.ep))).map Sent.data).filter (fun b => !b.isEmpty) =
      (typing (ticks evs)).take m := by
  obtain ⟨d, h1, h2⟩ := keyboardMain_ok p
  rw [h2] at hP
  cases hP
  obtain ⟨es, ⟨h, _⟩ | ⟨s', h3, h4, h5, h6⟩⟩ := main_program keyboardObj keyboardFeed d Keyboard.new p evs
  · rw [h] at hs; simp at hs
  · rw [← h6, ← polled_replies p d h1, ← h5]
    refine C78_keyboard p es (fun r hr => ?_)
    rw [polled_replies p d h1, h6, List.mem_filter] at hr
    exact hall r hr.1 (by simpa using hr.2)

/-- C85: and whoever has the keyboard and polls it gets the first report that nobody has received yet, or an
empty reply if there is none. -/
theorem C85_typing_poll (p : Profile) (P : Program (Unit × Keyboard)) (hP : keyboardMain p = .ok P)
    (evs : List MainEvent) (s : Proc (Unit × Keyboard)) (hs : P.run p evs = some s)
    (hall : ∀ r ∈ replies P p evs, DataIn r.ep → r.direction = 1 ∧ r.write = .full)
    (hw : s.net.sys.shared.world.ifPoisoned 0 = false) (c : Nat) (id : Bytes) (x : Conn) (ids : Bytes) (len : Nat)
    (setup data rest : Bytes) (hx : s.net.sys.conns c = some x) (hr : x.status = .running) (hc : x.current = some id)
    (hp : parse p.debugAssertions x.input.bytes = .request (.transfer ids 1 1 len setup data) rest) :
    ∃ s', P.run p (evs ++ [.iterate c .full]) = some s' ∧
      (newlySent s.net.sys s'.net.sys c).drop 48 = (typing (ticks evs)).getD
        ((((replies P p evs).filter (fun r => decide (DataIn r.ep))).map Sent.data).filter (fun b => !b.isEmpty)).length [] ∧
      ((newlySent s.net.sys s'.net.sys c).drop 20).take 8 =
        [0, 0, 0, 0] ++ bigEndian 4 ((newlySent s.net.sys s'.net.sys c).drop 48).length := by
  obtain ⟨d, h1, h2⟩ := keyboardMain_ok p
  rw [h2] at hP
  cases hP
  obtain ⟨s', g1, g2⟩ := main_iterate _ p evs s c .full hs (ready_of_parse p s.net c x _ rest hx hp)
  obtain ⟨es, ⟨h, _⟩ | ⟨s0, h3, h4, h5, h6⟩⟩ := main_program keyboardObj keyboardFeed d Keyboard.new p evs
  · rw [h] at hs; simp at hs
  · rw [h3] at hs
    cases hs
    rw [← h1] at h4
    obtain ⟨t, k1, k2, k3⟩ := C78_keyboard_poll p es s.net.sys c id x ids len setup data rest h4 hw (fun r hr => by
      rw [polled_replies p d h1, h6, List.mem_filter] at hr
      exact hall r hr.1 (by simpa using hr.2)) hx hr hc hp
    rw [progRun_snoc, h4] at k1
    have : s'.net.sys = t := by rw [g2]; exact Option.some.inj k1
    refine ⟨s', g1, ?_, by rw [this]; exact k3⟩
    rw [this, k2, h5, polled_replies p d h1, h6]

/-- C85: C78 for the process of the serial example: what clients have received, in order, and what is still
buffered are together one "a" for every second (same conditions as there). -/
theorem C85_text (p : Profile) (P : Program (Unit × Cdc)) (hP : serialMain p = .ok P) (evs : List MainEvent)
    (s : Proc (Unit × Cdc)) (hs : P.run p evs = some s) (hlen : ticks evs < 4294967296)
    (hep : ∀ r ∈ replies P p evs, r.ep.attributes.toNat = 2 ∨ r.ep.attributes.toNat = 3 ∨ r.ep.address.toNat < 128)
    (hall : ∀ r ∈ replies P p evs, BulkIn r.ep → r.direction = 1 ∧ r.write = .full) :
    ((replies P p evs).filter (fun r => decide (BulkIn r.ep))).flatMap Sent.data ++
      s.net.sys.shared.world.user.2.txBuffer = List.replicate (ticks evs) 97 := by
  obtain ⟨d, h1, h2⟩ := serialMain_ok p
  rw [h2] at hP
  cases hP
  obtain ⟨es, ⟨h, _⟩ | ⟨s0, h3, h4, h5, h6⟩⟩ := main_program serialObj serialFeed d Cdc.new p evs
  · rw [h] at hs; simp at hs
  · rw [h3] at hs
    cases hs
    rw [← h1] at h4
    obtain ⟨r1, r2⟩ := received_replies p d h1 es
    rw [h6] at r1 r2
    rw [← r2, ← h5]
    refine C78_serial p es s.net.sys (by rw [h5]; exact hlen) h4 (by rw [r1]; exact hep) (fun r hr => ?_)
    rw [r2, List.mem_filter] at hr
    exact hall r hr.1 (by simpa using hr.2)

/-- C85: and whoever has the serial port and reads from it gets one "a" for every second that nobody has
received the "a" of. -/
theorem C85_text_read (p : Profile) (P : Program (Unit × Cdc)) (hP : serialMain p = .ok P)
    (evs : List MainEvent) (s : Proc (Unit × Cdc)) (hs : P.run p evs = some s) (hlen : ticks evs < 4294967296)
    (hep : ∀ r ∈ replies P p evs, r.ep.attributes.toNat = 2 ∨ r.ep.attributes.toNat = 3 ∨ r.ep.address.toNat < 128)
    (hall : ∀ r ∈ replies P p evs, BulkIn r.ep → r.direction = 1 ∧ r.write = .full) (c : Nat) (id : Bytes) (x : Conn)
    (ids : Bytes) (len : Nat) (setup data rest : Bytes) (hx : s.net.sys.conns c = some x) (hr : x.status = .running)
    (hc : x.current = some id)
    (hp : parse p.debugAssertions x.input.bytes = .request (.transfer ids 1 2 len setup data) rest) :
    ∃ s', P.run p (evs ++ [.iterate c .full]) = some s' ∧
      (newlySent s.net.sys s'.net.sys c).drop 48 = List.replicate (ticks evs -
        (((replies P p evs).filter (fun r => decide (BulkIn r.ep))).flatMap Sent.data).length) 97 ∧
      ((newlySent s.net.sys s'.net.sys c).drop 20).take 8 =
        [0, 0, 0, 0] ++ bigEndian 4 ((newlySent s.net.sys s'.net.sys c).drop 48).length := by
  obtain ⟨d, h1, h2⟩ := serialMain_ok p
  rw [h2] at hP
  cases hP
  obtain ⟨s', g1, g2⟩ := main_iterate _ p evs s c .full hs (ready_of_parse p s.net c x _ rest hx hp)
  obtain ⟨es, ⟨h, _⟩ | ⟨s0, h3, h4, h5, h6⟩⟩ := main_program serialObj serialFeed d Cdc.new p evs
  · rw [h] at hs; simp at hs
  · rw [h3] at hs
    cases hs
    rw [← h1] at h4
    obtain ⟨r1, r2⟩ := received_replies p d h1 es
    rw [h6] at r1 r2
    obtain ⟨t, k1, k2, k3⟩ := C78_serial_read p es s.net.sys c id x ids len setup data rest (by rw [h5]; exact hlen) h4
      (by rw [r1]; exact hep) (fun r hr => by
        rw [r2, List.mem_filter] at hr
        exact hall r hr.1 (by simpa using hr.2)) hx hr hc hp
    rw [progRun_snoc, h4] at k1
    have : s'.net.sys = t := by rw [g2]; exact Option.some.inj k1
    refine ⟨s', g1, ?_, by rw [this]; exact k3⟩
    rw [this, k2, h5, r2]

/-! ## Examples -/

/-- A client imports the keyboard and polls it, sending the poll in two pieces. -/
def pollKeyboard : List MainEvent :=
  [.tick, .bind true, .dial 7, .arrive 7 ([1, 17, 0x80, 3, 0, 0, 0, 0] ++ ([48, 45, 48, 45, 48] ++ List.replicate 27 0)),
   .acceptErr, .acceptOk, .iterate 7 .full, .iterate 7 .full,
   .arrive 7 (be32 1 ++ be32 9 ++ be32 0 ++ be32 1), .iterate 7 .full,
   .arrive 7 (be32 1 ++ be32 0 ++ be32 8 ++ be32 0 ++ be32 0 ++ be32 0 ++ [0, 0, 0, 0, 0, 0, 0, 0])]

set_option maxRecDepth 100000 in
/-- The hypotheses of `C85_typing_poll` hold there, and the client gets "key 1 pressed". -/
example : ∃ P s x, keyboardMain release = .ok P ∧ P.run release pollKeyboard = some s ∧
    replies P release pollKeyboard = [] ∧ s.net.sys.shared.world.ifPoisoned 0 = false ∧
    s.net.sys.conns 7 = some x ∧ x.status = .running ∧ x.current = some [48, 45, 48, 45, 48] ∧
    (∃ ids len setup data rest,
      parse false x.input.bytes = .request (.transfer ids 1 1 len setup data) rest) ∧
    ∃ s', P.run release (pollKeyboard ++ [.iterate 7 .full]) = some s' ∧
      (newlySent s.net.sys s'.net.sys 7).drop 48 = [0, 0, 30, 0, 0, 0, 0, 0] :=
  ⟨_, _, _, rfl, rfl, rfl, rfl, rfl, rfl, rfl, ⟨_, _, _, _, _, rfl⟩, _, rfl, rfl⟩

set_option maxRecDepth 100000 in
/-- The address is taken: the keyboard example types for nobody. -/
example : ∃ P s, keyboardMain release = .ok P ∧
    P.run release [.bind false, .dial 7, .acceptOk, .tick, .tick, .arrive 7 [1], .iterate 7 .full] = some s ∧
    s.front 7 = .refused ∧ s.net.sys.shared.world.user.2.pending.length = 2 :=
  ⟨_, _, rfl, rfl, rfl, rfl⟩

set_option maxRecDepth 100000 in
/-- A client that asks the keyboard for its current report ends the program within a second. -/
example : ∃ P, keyboardMain release = .ok P ∧
    P.run release [.bind true, .dial 0, .acceptOk, .arrive 0 getReport, .tick, .iterate 0 .full, .iterate 0 .full, .tick] = none :=
  ⟨_, rfl, rfl⟩

end Usbip
