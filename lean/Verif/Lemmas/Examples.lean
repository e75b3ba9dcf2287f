import Verif.Lemmas.Hosted
import Verif.Props.Handlers
/-!
# From the handler objects to what clients see
-/

namespace Usbip
open Spec

theorem pointwise_imp {α β : Type} {R S : α → β → Prop} {l : List α} {m : List β}
    (h : Pointwise R l m) (hi : ∀ a b, a ∈ l → b ∈ m → R a b → S a b) : Pointwise S l m := by
  induction h with
  | nil => exact .nil
  | cons hr _ ih =>
    exact .cons (hi _ _ (by simp) (by simp) hr)
      (ih (fun a b ha hb => hi a b (by simp [ha]) (by simp [hb])))

theorem pointwise_map {α β γ : Type} {R : α → γ → Prop} {f : β → γ} {l : List α} :
    ∀ {m : List β}, Pointwise R l (m.map f) → Pointwise (fun a b => R a (f b)) l m := by
  intro m h
  generalize hm : m.map f = m' at h
  induction h generalizing m with
  | nil => rw [List.map_eq_nil_iff.mp hm]; exact .nil
  | cons hr _ ih =>
    cases m with
    | nil => simp at hm
    | cons b m =>
      simp only [List.map_cons, List.cons.injEq] at hm
      obtain ⟨rfl, hm⟩ := hm
      exact .cons hr (ih hm)

theorem pointwise_eq {α β : Type} {f : α → β} {l : List α} {m : List β}
    (h : Pointwise (fun a b => f a = b) l m) : l.map f = m := by
  induction h with
  | nil => rfl
  | cons hr _ ih => rw [List.map_cons, hr, ih]

theorem polls_carry (obs : List (Op KeyReport × Option Sent)) : ∀ k : Keyboard,
    (∀ o ∈ obs, Shaped o) →
    Pointwise Carries (obs.filterMap Prod.snd) (objRun keyboardObj Keyboard.push k (obs.map Prod.fst)).1 →
    Pointwise Carries ((obs.filterMap Prod.snd).filter (fun r => decide (DataIn r.ep)))
      (typeAndPoll k (obs.map (fun o => keyOp o.1))).1 := by
  induction obs with
  | nil => intro k _ _; exact .nil
  | cons o obs ih =>
    intro k hs h
    have ih' := fun k => ih k (fun o ho => hs o (by simp [ho]))
    have h0 := hs o (by simp)
    rcases o with ⟨_ | ⟨ep, st⟩, _ | r⟩
    · exact ih' _ h
    · exact absurd h0 (by simp [Shaped])
    · exact absurd h0 (by simp [Shaped])
    · have h0 : r.ep = ep := h0
      have h : Pointwise Carries (r :: obs.filterMap Prod.snd)
        ((keyboardObj ep st k).1 :: (objRun keyboardObj Keyboard.push (keyboardObj ep st k).2
          (obs.map Prod.fst)).1) := h
      cases h with
      | cons hr hrest =>
        have hi := ih' _ hrest
        simp only [List.filterMap_cons, List.map_cons, keyOp, typeAndPoll]
        by_cases hd : DataIn ep
        · rw [List.filter_cons_of_pos (by rw [h0]; simpa using hd), if_pos hd]
          exact .cons hr hi
        · rw [List.filter_cons_of_neg (by rw [h0]; simpa using hd), if_neg hd]
          exact hi

theorem expected_small (ops : List KOp) : ∀ (evs : List KeyReport) (n : Nat),
    ∀ b ∈ expected codeUp evs n ops, b.length ≤ 8 := by
  induction ops with
  | nil => intro _ _ b hb; simp [expected] at hb
  | cons op ops ih =>
    intro evs n b hb
    cases op with
    | push r => exact ih _ _ b hb
    | urb ep s =>
      simp only [expected] at hb
      split at hb
      · split at hb
        · rename_i x hx
          rcases List.mem_cons.mp hb with rfl | hb
          · have := List.mem_of_getElem? hx
            simp only [script, List.mem_flatMap, List.mem_cons, List.not_mem_nil, or_false] at this
            obtain ⟨r, _, h | h⟩ := this
            · rw [h]; simp [keyDownReport]
            · rw [h]; decide
          · exact ih _ _ b hb
        · rcases List.mem_cons.mp hb with rfl | hb
          · simp
          · exact ih _ _ b hb
      · exact ih _ _ b hb

theorem queued_typed {σ} (env : Env σ) (h : Nat) (p : Profile) (es : List (HostedEvent σ KeyReport)) :
    ∀ s : Sys (σ × Keyboard), queued (keyboardOps env h p s es) = typed es := by
  induction es with
  | nil => intro s; rfl
  | cons e es ih =>
    intro s
    have := ih (s.step (hosting keyboardObj h env) p (e.event Keyboard.push))
    simp only [keyboardOps, observations, List.map_append, queued, List.filterMap_append] at this ⊢
    rw [this]
    cases e with
    | app r => rfl
    | server e =>
      have hq : ∀ o, observe (hosting keyboardObj h env) Keyboard.push h p s (.server e) = some o →
          ∃ ep st, o.1 = .urb ep st := by
        intro o ho
        cases e with
        | iterate c w =>
          simp only [observe] at ho
          split at ho
          · split at ho
            · simp only [Option.some.injEq] at ho; subst ho; exact ⟨_, _, rfl⟩
            · simp at ho
          · simp at ho
        | _ => simp [observe] at ho
      cases ho : observe (hosting keyboardObj h env) Keyboard.push h p s (.server e) with
      | none => rfl
      | some o =>
        obtain ⟨ep, st, he⟩ := hq o ho
        simp [typed, he, keyOp]

/-! ## The serial port -/

theorem serial_objRun (ops : List (Op Bytes)) : ∀ c : Cdc,
    (objRun serialObj Cdc.write c ops).2 = (Spec.serve c (ops.map serialOp)).2 := by
  induction ops with
  | nil => intro c; rfl
  | cons op ops ih =>
    intro c
    cases op with
    | app b => exact ih _
    | urb ep st => exact ih _

theorem serial_carry (obs : List (Op Bytes × Option Sent)) : ∀ c : Cdc,
    (∀ o ∈ obs, Shaped o) →
    Pointwise Carries (obs.filterMap Prod.snd) (objRun serialObj Cdc.write c (obs.map Prod.fst)).1 →
    Pointwise (fun r x => r.ep = x.1 ∧ Carries r x.2) (obs.filterMap Prod.snd)
      (Spec.serve c (obs.map (fun o => serialOp o.1))).1 := by
  induction obs with
  | nil => intro k _ _; exact .nil
  | cons o obs ih =>
    intro c hs h
    have ih' := fun c => ih c (fun o ho => hs o (by simp [ho]))
    have h0 := hs o (by simp)
    rcases o with ⟨_ | ⟨ep, st⟩, _ | r⟩
    · exact ih' _ h
    · exact absurd h0 (by simp [Shaped])
    · exact absurd h0 (by simp [Shaped])
    · have h0 : r.ep = ep := h0
      have h : Pointwise Carries (r :: obs.filterMap Prod.snd)
        ((serialObj ep st c).1 :: (objRun serialObj Cdc.write (serialObj ep st c).2
          (obs.map Prod.fst)).1) := h
      cases h with
      | cons hr hrest => exact .cons ⟨h0, hr⟩ (ih' _ hrest)

theorem pointwise_filter {α β : Type} {R : α → β → Prop} {f : α → Bool} {g : β → Bool}
    {l : List α} {m : List β} (h : Pointwise R l m) (hfg : ∀ a b, R a b → f a = g b) :
    Pointwise R (l.filter f) (m.filter g) := by
  induction h with
  | nil => exact .nil
  | @cons a b l m hr _ ih =>
    have := hfg a b hr
    cases hg : g b with
    | true =>
      rw [List.filter_cons_of_pos (by rw [this, hg]), List.filter_cons_of_pos hg]
      exact .cons hr ih
    | false =>
      rw [List.filter_cons_of_neg (by rw [this, hg]; simp), List.filter_cons_of_neg (by rw [hg]; simp)]
      exact ih

theorem pointwise_flatMap {α β γ : Type} {f : α → List γ} {g : β → List γ}
    {l : List α} {m : List β} (h : Pointwise (fun a b => f a = g b) l m) :
    l.flatMap f = m.flatMap g := by
  induction h with
  | nil => rfl
  | cons hr _ ih => rw [List.flatMap_cons, List.flatMap_cons, hr, ih]

theorem pointwise_sublist {α β γ : Type} {f : α → List γ} {g : β → List γ}
    {l : List α} {m : List β} (h : Pointwise (fun a b => (f a).Sublist (g b)) l m) :
    (l.flatMap f).Sublist (m.flatMap g) := by
  induction h with
  | nil => exact List.Sublist.refl _
  | cons hr _ ih => rw [List.flatMap_cons, List.flatMap_cons]; exact hr.append ih

theorem cdc_answers (c : Cdc) (e : Endpoint) : ∃ b, (c.handleUrb e).1 = .ok b := by
  unfold Cdc.handleUrb
  split
  · exact ⟨_, rfl⟩
  · cases e.direction <;> exact ⟨_, rfl⟩

theorem serve_answers_ok (ops : List COp) : ∀ (c : Cdc), ∀ x ∈ (Spec.serve c ops).1,
    x.2 = .ok (HRes.bytes x.2) := by
  induction ops with
  | nil => intro c x hx; simp [Spec.serve] at hx
  | cons op ops ih =>
    intro c x hx
    cases op with
    | write b => exact ih _ x hx
    | urb e =>
      have hx : x ∈ (e, (c.handleUrb e).1) :: (Spec.serve (c.handleUrb e).2 ops).1 := hx
      obtain ⟨b, hb⟩ := cdc_answers c e
      rw [hb] at hx
      rcases List.mem_cons.mp hx with rfl | hx
      · rfl
      · exact ih _ x hx

theorem flatMap_length_le {α β : Type} (f : α → List β) (l : List α) (a : α) (ha : a ∈ l) :
    (f a).length ≤ (l.flatMap f).length := by
  induction l with
  | nil => simp at ha
  | cons b l ih =>
    rw [List.flatMap_cons, List.length_append]
    rcases List.mem_cons.mp ha with rfl | ha
    · omega
    · have := ih ha; omega

theorem observe_urb {σ τ α} (env : Env (σ × τ)) (act : α → τ → τ) (h : Nat) (p : Profile)
    (s : Sys (σ × τ)) (e : Event σ) (o : Op α × Option Sent)
    (ho : observe env act h p s (.server e) = some o) : ∃ ep st, o.1 = .urb ep st := by
  cases e with
  | iterate c w =>
    simp only [observe] at ho
    split at ho
    · split at ho
      · simp only [Option.some.injEq] at ho; subst ho; exact ⟨_, _, rfl⟩
      · simp at ho
    · simp at ho
  | _ => simp [observe] at ho

theorem written_spoken {σ} (env : Env σ) (h : Nat) (p : Profile) (es : List (HostedEvent σ Bytes)) :
    ∀ s : Sys (σ × Cdc), written
      ((observations (hosting serialObj h env) Cdc.write h p s es).map (fun o => serialOp o.1))
        = spoken es := by
  induction es with
  | nil => intro s; rfl
  | cons e es ih =>
    intro s
    have := ih (s.step (hosting serialObj h env) p (e.event Cdc.write))
    simp only [observations, List.map_append, written, List.flatMap_append] at this ⊢
    rw [this]
    cases e with
    | app r => simp [observe, serialOp, spoken]
    | server e =>
      cases ho : observe (hosting serialObj h env) Cdc.write h p s (.server e) with
      | none => rfl
      | some o =>
        obtain ⟨ep, st, he⟩ := observe_urb _ _ _ _ _ _ _ ho
        simp [spoken, he, serialOp]

/-! ## The example programs -/

theorem keyboard_panics (k : Keyboard) (ep : Endpoint) (st : SetupPacket)
    (h : (keyboardObj ep st k).1 = .panic) : ep.address.toNat % 128 = 0 ∧ ¬ KeyboardKnows st := by
  unfold keyboardObj Keyboard.handleUrb at h
  have hs : (st.value >>> 8).toNat = st.value.toNat / 256 := by
    rw [UInt16.toNat_shiftRight]
    exact Nat.shiftRight_eq_div_pow _ 8
  by_cases he : ep.isEp0 = true
  · refine ⟨(isEp0_iff ep).mp he, ?_⟩
    rw [if_pos he] at h
    unfold KeyboardKnows
    rintro (⟨h1, h2, h3⟩ | ⟨h1, h2⟩)
    · have e1 : st.requestType = 0x81 := u8_ext (by rw [h1]; rfl)
      have e2 : st.request = 0x06 := u8_ext (by rw [h2]; rfl)
      rw [if_pos ⟨e1, e2⟩] at h
      have e3 : st.value >>> 8 = 0x22 := u16_ext (by rw [hs, h3]; rfl)
      rw [e3] at h
      simp [isHidReport] at h
    · have e1 : st.requestType = 0x21 := u8_ext (by rw [h1]; rfl)
      have e2 : st.request = 0x0A := u8_ext (by rw [h2]; rfl)
      rw [e1, e2] at h
      simp at h
  · rw [if_neg he] at h
    split at h
    · split at h
      · simp at h
      · split at h <;> simp at h
    · simp at h

theorem keyboard_panics_iff (k : Keyboard) (ep : Endpoint) (st : SetupPacket) :
    (keyboardObj ep st k).1 = .panic ↔ ep.address.toNat % 128 = 0 ∧ ¬ KeyboardKnows st := by
  refine ⟨keyboard_panics k ep st, fun ⟨h1, h2⟩ => ?_⟩
  unfold keyboardObj Keyboard.handleUrb
  have hs : (st.value >>> 8).toNat = st.value.toNat / 256 := by
    rw [UInt16.toNat_shiftRight]
    exact Nat.shiftRight_eq_div_pow _ 8
  rw [if_pos ((isEp0_iff ep).mpr h1)]
  unfold KeyboardKnows at h2
  split
  · rename_i h
    split
    · rename_i h3
      exfalso
      apply h2
      refine .inl ⟨by rw [h.1]; rfl, by rw [h.2]; rfl, ?_⟩
      rw [← hs]
      simp only [isHidReport, beq_iff_eq] at h3
      rw [h3]; rfl
    · rfl
  · split
    · rename_i h
      exact absurd (.inr ⟨by rw [h.1]; rfl, by rw [h.2]; rfl⟩) h2
    · rfl

/-- One step of an example program, as an event of a hosted object (`α = Unit`: a feed). -/
def ProgEvent.hosted : ProgEvent → HostedEvent Unit Unit
  | .connect c i => .server (.connect c i)
  | .iterate c w => .server (.iterate c w)
  | .cancel c => .server (.cancel c)
  | .tick => .app ()

theorem progStep_some {τ} (obj : Endpoint → SetupPacket → τ → HRes × τ) (feed : τ → τ) (p : Profile)
    (s : Sys (Unit × τ)) (e : ProgEvent) :
    progStep obj feed p (some s) e =
      if e matches .tick ∧ s.shared.world.ifPoisoned 0 = true then none
      else some (s.step (hosting obj 0 noHandlers) p (e.hosted.event (fun _ => feed))) := by
  cases e with
  | tick => simp only [progStep, true_and]; rfl
  | _ => simp only [progStep, false_and, if_false]; rfl

theorem prog_poison {τ} (obj : Endpoint → SetupPacket → τ → HRes × τ) (feed : τ → τ) (p : Profile)
    (s : Sys (Unit × τ)) (e : ProgEvent) (h0 : s.shared.world.ifPoisoned 0 = false)
    (h1 : (s.step (hosting obj 0 noHandlers) p (e.hosted.event (fun _ => feed))).shared.world.ifPoisoned 0
      = true) :
    ∃ c w j ep st, e = .iterate c w ∧ job p s c = some j ∧ j.urb 0 s.shared.world = some (ep, st) ∧
      (obj ep st s.shared.world.user.2).1 = .panic := by
  have h := step_observed (α := Unit) obj (fun _ => feed) 0 noHandlers p s e.hosted
  cases ho : observe (hosting obj 0 noHandlers) (fun (_ : Unit) => feed) 0 p s e.hosted with
  | none => rw [ho] at h; rw [h.2 (by cases e <;> simp [ProgEvent.hosted]), h0] at h1; simp at h1
  | some o =>
    obtain ⟨op, o⟩ := o
    rw [ho] at h
    cases op with
    | app a => rw [h.2.2, h0] at h1; simp at h1
    | urb ep st =>
      obtain ⟨r, _, _, _, _, h5⟩ := h
      have hp := h5.mp h1
      cases e with
      | iterate c w =>
        simp only [ProgEvent.hosted, observe] at ho
        cases hj : job p s c with
        | none => rw [hj] at ho; simp at ho
        | some j =>
          rw [hj] at ho
          dsimp only at ho
          cases hu : j.urb 0 s.shared.world with
          | none => rw [hu] at ho; simp at ho
          | some r =>
            obtain ⟨ep', st'⟩ := r
            rw [hu] at ho
            simp only [Option.some.injEq, Prod.mk.injEq, Op.urb.injEq] at ho
            obtain ⟨⟨rfl, rfl⟩, _⟩ := ho
            exact ⟨c, w, j, _, _, rfl, hj, hu, hp⟩
      | _ => simp [ProgEvent.hosted, observe] at ho

/-- After a panic of the handler, a step keeps it poisoned. -/
theorem prog_poisoned_stays {τ} (obj : Endpoint → SetupPacket → τ → HRes × τ) (feed : τ → τ) (p : Profile)
    (s : Sys (Unit × τ)) (e : ProgEvent) (h0 : s.shared.world.ifPoisoned 0 = true) :
    (s.step (hosting obj 0 noHandlers) p (e.hosted.event (fun _ => feed))).shared.world.ifPoisoned 0 = true := by
  have h := step_observed (α := Unit) obj (fun _ => feed) 0 noHandlers p s e.hosted
  cases ho : observe (hosting obj 0 noHandlers) (fun (_ : Unit) => feed) 0 p s e.hosted with
  | none => rw [ho] at h; rw [h.2 (by cases e <;> simp [ProgEvent.hosted]), h0]
  | some o =>
    obtain ⟨op, o⟩ := o
    rw [ho] at h
    cases op with
    | app a => rw [h.2.2, h0]
    | urb ep st =>
      exfalso
      cases e with
      | iterate c w =>
        simp only [ProgEvent.hosted, observe] at ho
        split at ho
        · rename_i j _
          have hu : j.urb 0 s.shared.world = none := by
            unfold Job.urb
            split
            · rw [if_neg (by rw [h0]; simp)]
            · rfl
          rw [hu] at ho; simp at ho
        · simp at ho
      | _ => simp [ProgEvent.hosted, observe] at ho

theorem prog_poisoned_run {τ} (obj : Endpoint → SetupPacket → τ → HRes × τ) (feed : τ → τ) (p : Profile)
    (es : List ProgEvent) : ∀ s : Sys (Unit × τ), s.shared.world.ifPoisoned 0 = true →
    (progRun obj feed p (some s) es = none ↔ .tick ∈ es) := by
  induction es with
  | nil => intro s _; simp [progRun]
  | cons e es ih =>
    intro s h0
    have hn : progRun obj feed p none es = none := by
      clear ih
      induction es with
      | nil => rfl
      | cons e es ih => exact ih
    have hrun : progRun obj feed p (some s) (e :: es) = progRun obj feed p (progStep obj feed p (some s) e) es := rfl
    rw [hrun, progStep_some]
    by_cases he : e = .tick
    · subst he
      simp [h0, hn]
    · rw [if_neg (by cases e <;> simp_all), ih _ (prog_poisoned_stays obj feed p s e h0)]
      simp only [List.mem_cons]
      constructor
      · exact Or.inr
      · rintro (h | h)
        · exact absurd h.symm he
        · exact h

/-- A program has ended exactly if its main loop has come round after a URB in which the handler panicked. -/
theorem prog_ended_iff {τ} (obj : Endpoint → SetupPacket → τ → HRes × τ) (feed : τ → τ) (p : Profile)
    (es : List ProgEvent) : ∀ s : Sys (Unit × τ), s.shared.world.ifPoisoned 0 = false →
    (progRun obj feed p (some s) es = none ↔
    ∃ es1 c w es2 t j ep st, es = es1 ++ .iterate c w :: es2 ∧ .tick ∈ es2 ∧
      progRun obj feed p (some s) es1 = some t ∧ job p t c = some j ∧
      j.urb 0 t.shared.world = some (ep, st) ∧ (obj ep st t.shared.world.user.2).1 = .panic) := by
  intro s h0
  constructor
  · induction es generalizing s with
    | nil => intro h; simp [progRun] at h
    | cons e es ih =>
      intro h
      have hst : progStep obj feed p (some s) e
          = some (s.step (hosting obj 0 noHandlers) p (e.hosted.event (fun _ => feed))) := by
        rw [progStep_some, if_neg (by simp [h0])]
      have hrun : ∀ l, progRun obj feed p (some s) (e :: l)
          = progRun obj feed p (some (s.step (hosting obj 0 noHandlers) p
            (e.hosted.event (fun _ => feed)))) l := by
        intro l; simp only [progRun, List.foldl_cons, hst]
      rw [hrun] at h
      cases h1 : (s.step (hosting obj 0 noHandlers) p
          (e.hosted.event (fun _ => feed))).shared.world.ifPoisoned 0 with
      | false =>
        obtain ⟨es1, c, w, es2, t, j, ep, st, hes, htick, ht, hrest⟩ := ih _ h1 h
        exact ⟨e :: es1, c, w, es2, t, j, ep, st, by rw [hes]; rfl, htick, by rw [hrun]; exact ht, hrest⟩
      | true =>
        obtain ⟨c, w, j, ep, st, rfl, hj, hu, hp⟩ := prog_poison obj feed p s e h0 h1
        exact ⟨[], c, w, es, s, j, ep, st, rfl, (prog_poisoned_run obj feed p es _ h1).mp h, rfl, hj, hu, hp⟩
  · rintro ⟨es1, c, w, es2, t, j, ep, st, rfl, htick, ht, hj, hu, hp⟩
    have hrun : progRun obj feed p (some s) (es1 ++ .iterate c w :: es2)
        = progRun obj feed p (progStep obj feed p (some t) (.iterate c w)) es2 := by
      rw [← ht]
      simp only [progRun, List.foldl_append, List.foldl_cons]
    have hstep := step_observed (α := Unit) obj (fun _ => feed) 0 noHandlers p t (ProgEvent.iterate c w).hosted
    have ho : ∃ o, observe (hosting obj 0 noHandlers) (fun (_ : Unit) => feed) 0 p t (ProgEvent.iterate c w).hosted
        = some (.urb ep st, o) := by
      simp only [ProgEvent.hosted, observe, hj, hu]
      exact ⟨_, rfl⟩
    obtain ⟨o, ho⟩ := ho
    rw [ho] at hstep
    obtain ⟨r, _, _, _, _, h5⟩ := hstep
    rw [hrun, progStep_some, if_neg (by simp)]
    exact (prog_poisoned_run obj feed p es2 _ (h5.mpr hp)).mpr htick
end Usbip
