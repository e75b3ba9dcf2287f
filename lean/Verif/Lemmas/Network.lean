import Verif.Spec.Network
import Verif.Lemmas.Frame
import Verif.Lemmas.Session
/-! Helper lemmas: sockets that deliver over time. -/

namespace Usbip
open Spec

/-- A reader that on arrived bytes `bs` gives `o`, does the same whatever follows; and if it waits,
the end of the stream makes it fail. -/
def EarlyAt {α} (o : Outcome (α × Arrived)) (y : Rd Stream α) (bs : Bytes) : Prop :=
  match o with
  | .ok (a, r) => ∀ more fin, y ⟨bs ++ more, fin⟩ = .ok (a, ⟨r.bytes ++ more, fin⟩)
  | .err e => ∀ more fin, y ⟨bs ++ more, fin⟩ = .err e
  | .panic => ∀ more fin, y ⟨bs ++ more, fin⟩ = .panic
  | .diverge => ∀ fin, y ⟨bs, fin⟩ = .err fin

def Early {α} (x : Rd Arrived α) (y : Rd Stream α) : Prop := ∀ bs, EarlyAt (x ⟨bs⟩) y bs

theorem early_pure {α} (a : α) : Early (pure a) (pure a) := fun _ _ _ => rfl
theorem early_err {α} (e : ErrKind) : Early (rdErr e : Rd Arrived α) (rdErr e) := fun _ _ _ => rfl
theorem early_panic {α} : Early (fun _ => .panic : Rd Arrived α) (fun _ => .panic) := fun _ _ _ => rfl
theorem early_assert (p : Profile) (c : Bool) : Early (rdAssert p c) (rdAssert p c) := by
  intro bs
  rw [rdAssert_apply]
  cases h : debugAssert p c with
  | ok u => intro more fin; rw [rdAssert_apply, h]; rfl
  | err e => intro more fin; rw [rdAssert_apply, h]; rfl
  | panic => intro more fin; rw [rdAssert_apply, h]; rfl
  | diverge => unfold debugAssert at h; split at h <;> simp at h

theorem early_bind {α β} {x : Rd Arrived α} {y : Rd Stream α} {f : α → Rd Arrived β}
    {g : α → Rd Stream β} (h : Early x y) (hf : ∀ a, Early (f a) (g a)) : Early (x >>= f) (y >>= g) := by
  intro bs
  have h1 := h bs
  rw [rd_bind]
  cases hx : x ⟨bs⟩ with
  | ok r =>
    obtain ⟨a, r⟩ := r
    rw [hx] at h1
    have h2 := hf a r.bytes
    show EarlyAt (f a r) (y >>= g) bs
    cases hfa : f a r with
    | ok q =>
      obtain ⟨b, q⟩ := q
      rw [hfa] at h2
      intro more fin
      rw [rd_bind, h1 more fin]
      exact h2 more fin
    | err e =>
      rw [hfa] at h2
      intro more fin
      rw [rd_bind, h1 more fin]
      exact h2 more fin
    | panic =>
      rw [hfa] at h2
      intro more fin
      rw [rd_bind, h1 more fin]
      exact h2 more fin
    | diverge =>
      rw [hfa] at h2
      intro fin
      have := h1 [] fin
      rw [List.append_nil, List.append_nil] at this
      rw [rd_bind, this]
      exact h2 fin
  | err e =>
    rw [hx] at h1
    intro more fin
    rw [rd_bind, h1 more fin]; rfl
  | panic =>
    rw [hx] at h1
    intro more fin
    rw [rd_bind, h1 more fin]; rfl
  | diverge =>
    rw [hx] at h1
    intro fin
    rw [rd_bind, h1 fin]; rfl

theorem early_ite {α} {c : Prop} [Decidable c] {x x' : Rd Arrived α} {y y' : Rd Stream α}
    (h : Early x y) (h' : Early x' y') : Early (if c then x else x') (if c then y else y') := by
  split <;> assumption

theorem early_readExact (n : Nat) : Early (readExact n) (readExact n) := by
  intro bs
  show EarlyAt (Arrived.readExact n ⟨bs⟩) (Stream.readExact n) bs
  unfold Arrived.readExact
  by_cases hn : n ≤ bs.length
  · rw [if_pos hn]
    intro more fin
    simp only [Stream.readExact]
    rw [if_pos (by rw [List.length_append]; omega), List.take_append_of_le_length hn,
      List.drop_append_of_le_length hn]
  · rw [if_neg hn]
    intro fin
    simp only [Stream.readExact]
    rw [if_neg hn]

theorem early_readU16 : Early readU16 readU16 := by
  refine early_bind (early_readExact 2) ?_
  intro bs
  split
  · exact early_pure _
  · exact early_panic

theorem early_readU32 : Early readU32 readU32 := by
  refine early_bind (early_readExact 4) ?_
  intro bs
  split
  · exact early_pure _
  · exact early_panic

theorem early_readCommand (p : Profile) : Early (readCommand p) (readCommand p) := by
  unfold readCommand readSubmit readUnlink readHeader
  repeat' first
    | exact early_readU16 | exact early_readU32 | exact early_readExact _
    | exact early_assert _ _ | exact early_pure _ | exact early_err _
    | refine early_bind ?_ ?_ | refine early_ite ?_ ?_ | intro _

theorem iterate_awaiting {σ} (env : Env σ) (p : Profile) (sh : Shared σ) (x : Conn) (w : WriteRes) (more : Stream)
    (hr : (readCommand p : Rd Arrived Cmd) ⟨x.input.bytes⟩ ≠ .diverge) :
    (awaiting x more).iterate env p sh w =
      ((x.iterate env p sh w).1, awaiting (x.iterate env p sh w).2 more) := by
  have he := early_readCommand p x.input.bytes
  have hx : x.input = ⟨x.input.bytes ++ [], x.input.fin⟩ := by rw [List.append_nil]
  unfold Conn.iterate
  cases h : (readCommand p : Rd Arrived Cmd) ⟨x.input.bytes⟩ with
  | diverge => exact absurd h hr
  | ok q =>
    obtain ⟨cmd, r⟩ := q
    rw [h] at he
    have h1 := he more.bytes more.fin
    have h0 := he [] x.input.fin
    rw [← hx, List.append_nil] at h0
    rw [show (awaiting x more).input = ⟨x.input.bytes ++ more.bytes, more.fin⟩ from rfl, h1, h0]
    simp only [show (awaiting x more).current = x.current from rfl]
    rcases hs : sh.serve env p x.current cmd with ⟨o, s', cur'⟩
    cases o with
    | ok resp =>
      simp only
      cases hb : resp.toBytes p with
      | ok bytes => cases w <;> rfl
      | err e => rfl
      | panic => rfl
      | diverge => rfl
    | err e => rfl
    | panic => rfl
    | diverge => rfl
  | err e =>
    rw [h] at he
    have h1 := he more.bytes more.fin
    have h0 := he [] x.input.fin
    rw [← hx] at h0
    rw [show (awaiting x more).input = ⟨x.input.bytes ++ more.bytes, more.fin⟩ from rfl, h1, h0]
    simp only [show (awaiting x more).current = x.current from rfl]
    cases sh.release x.current <;> rfl
  | panic =>
    rw [h] at he
    have h1 := he more.bytes more.fin
    have h0 := he [] x.input.fin
    rw [← hx] at h0
    rw [show (awaiting x more).input = ⟨x.input.bytes ++ more.bytes, more.fin⟩ from rfl, h1, h0]
    rfl

theorem readCommand_fin {p : Profile} {s s' : Stream} {cmd : Cmd}
    (h : (readCommand p : Rd Stream Cmd) s = .ok (cmd, s')) : s'.fin = s.fin := by
  obtain ⟨_, _, _, hs⟩ := readCommand_inv h
  rw [hs]

/-- How a connection's input ends does not change. -/
theorem iterate_fin {σ} (env : Env σ) (p : Profile) (sh : Shared σ) (x : Conn) (w : WriteRes) :
    (x.iterate env p sh w).2.input.fin = x.input.fin := by
  have h := iterate_res env p sh x w
  generalize (x.iterate env p sh w).1 = s' at h
  generalize (x.iterate env p sh w).2 = x' at h
  cases h with
  | done => rfl
  | missing => rfl
  | readPanic => rfl
  | answered cmd rest resp s' cur' bytes hr => exact readCommand_fin hr
  | writeFailed cmd rest resp s' cur' bytes n e hr => exact readCommand_fin hr
  | writeCut cmd rest resp s' cur' bytes n hr => exact readCommand_fin hr
  | servePanic cmd rest hr => exact readCommand_fin hr

/-- What has still to arrive. -/
def upcoming {σ} (s : Net σ) (rest : Nat → Stream) (es : List (NetEvent σ)) (c : Nat) : Stream :=
  match s.ended c with
  | some e => ⟨[], e⟩
  | none => sent c (rest c) es

/-- `t` is `s` with everything that has still to arrive there already. -/
structure Foresees {σ} (s : Net σ) (t : Sys σ) (up : Nat → Stream) : Prop where
  shared : t.shared = s.sys.shared
  conns : ∀ c, t.conns c = (s.sys.conns c).map (awaiting · (up c))
  fin : ∀ c x e, s.sys.conns c = some x → s.ended c = some e → x.input.fin = e
  none : ∀ c, s.sys.conns c = none → s.ended c = none

theorem upcoming_congr {σ} {s s' : Net σ} {rest : Nat → Stream} {es es' : List (NetEvent σ)} {c : Nat}
    (he : s'.ended c = s.ended c) (hs : s.ended c = none → sent c (rest c) es' = sent c (rest c) es) :
    upcoming s' rest es' c = upcoming s rest es c := by
  unfold upcoming
  rw [he]
  cases h : s.ended c with
  | none => exact hs h
  | some e => rfl

/-- Steps that are the same on both sides. -/
theorem foresees_same {σ} (env : Env σ) (p : Profile) (rest : Nat → Stream) (s : Net σ) (t : Sys σ)
    (up up' : Nat → Stream) (hup : ∀ c, up' c = up c) (h : Foresees s t up) (e : Event σ)
    (he : (∃ d, e = .addDevice d) ∨ (∃ id, e = .removeDevice id) ∨ (∃ f crash, e = .user f crash)) :
    Foresees { s with sys := s.sys.step env p e } (t.step env p e) up' := by
  obtain ⟨h1, h2, h3, h4⟩ := h
  rcases he with ⟨d, rfl⟩ | ⟨id, rfl⟩ | ⟨f, crash, rfl⟩ <;>
  exact ⟨by simp only [Sys.step, h1], by intro c; rw [hup c]; exact h2 c, h3, h4⟩

theorem foresees_step {σ} (env : Env σ) (p : Profile) (rest : Nat → Stream) (e : NetEvent σ)
    (es : List (NetEvent σ)) (s : Net σ) (t : Sys σ) (h : Foresees s t (upcoming s rest (e :: es))) :
    Foresees (s.step env p e) (t.run env p (counted p rest s es e)) (upcoming (s.step env p e) rest es) := by
  obtain ⟨h1, h2, h3, h4⟩ := h
  cases e with
  | connect c =>
    show Foresees { s with sys := s.sys.step env p (.connect c ⟨[], .unexpectedEof⟩) }
      (t.step env p (.connect c (sent c (rest c) es))) _
    cases hc : s.sys.conns c with
    | some x =>
      have ht : t.conns c = some (awaiting x (upcoming s rest (.connect c :: es) c)) := by rw [h2, hc]; rfl
      simp only [Sys.step, hc, ht]
      exact ⟨h1, h2, h3, h4⟩
    | none =>
      have ht : t.conns c = none := by rw [h2, hc]; rfl
      have hen := h4 c hc
      simp only [Sys.step, hc, ht]
      refine ⟨h1, ?_, ?_, ?_⟩
      · intro c'
        simp only [setConn]
        by_cases hcc : c' = c
        · subst hcc
          have hen' : (s.step env p (.connect c')).ended c' = none := hen
          simp [Conn.new, awaiting, upcoming, hen']
        · simp only [if_neg hcc]; exact h2 c'
      · intro c' x e hx he
        simp only [setConn] at hx
        by_cases hcc : c' = c
        · subst hcc
          have he : s.ended c' = some e := he
          rw [hen] at he; simp at he
        · simp only [if_neg hcc] at hx; exact h3 c' x e hx he
      · intro c' hx
        simp only [setConn] at hx
        by_cases hcc : c' = c
        · simp [hcc] at hx
        · simp only [if_neg hcc] at hx; exact h4 c' hx
  | arrive c bs =>
    show Foresees (s.step env p (.arrive c bs)) t _
    simp only [Net.step]
    cases hc : s.sys.conns c with
    | none =>
      simp only
      refine ⟨h1, ?_, h3, h4⟩
      intro c'
      by_cases hcc : c' = c
      · subst hcc; rw [h2, hc]; rfl
      · rw [h2, upcoming_congr rfl]
        intro _; rw [sent, if_neg (fun h => hcc h.symm)]
    | some x =>
      cases he : s.ended c with
      | some e =>
        simp only
        refine ⟨h1, ?_, h3, h4⟩
        intro c'
        rw [h2, upcoming_congr rfl]
        intro hn
        by_cases hcc : c' = c
        · subst hcc; rw [he] at hn; simp at hn
        · rw [sent, if_neg (fun h => hcc h.symm)]
      | none =>
        simp only
        refine ⟨h1, ?_, ?_, ?_⟩
        · intro c'
          simp only [setConn]
          by_cases hcc : c' = c
          · subst hcc
            rw [h2, hc]
            simp [awaiting, upcoming, he, sent]
          · simp only [if_neg hcc]
            rw [h2]
            congr 2
            unfold upcoming
            simp only
            rw [sent, if_neg (fun h => hcc h.symm)]
        · intro c' y e hx hee
          simp only [setConn] at hx
          by_cases hcc : c' = c
          · subst hcc
            have hee : s.ended c' = some e := hee
            rw [he] at hee; simp at hee
          · simp only [if_neg hcc] at hx; exact h3 c' y e hx hee
        · intro c' hx
          simp only [setConn] at hx
          by_cases hcc : c' = c
          · simp [hcc] at hx
          · simp only [if_neg hcc] at hx; exact h4 c' hx
  | hangup c e =>
    show Foresees (s.step env p (.hangup c e)) t _
    simp only [Net.step]
    cases hc : s.sys.conns c with
    | none =>
      simp only
      refine ⟨h1, ?_, h3, h4⟩
      intro c'
      by_cases hcc : c' = c
      · subst hcc; rw [h2, hc]; rfl
      · rw [h2, upcoming_congr rfl]
        intro _; rw [sent, if_neg (fun h => hcc h.symm)]
    | some x =>
      cases he : s.ended c with
      | some e' =>
        simp only
        refine ⟨h1, ?_, h3, h4⟩
        intro c'
        rw [h2, upcoming_congr rfl]
        intro hn
        by_cases hcc : c' = c
        · subst hcc; rw [he] at hn; simp at hn
        · rw [sent, if_neg (fun h => hcc h.symm)]
      | none =>
        simp only
        refine ⟨h1, ?_, ?_, ?_⟩
        · intro c'
          simp only [setConn]
          by_cases hcc : c' = c
          · subst hcc
            rw [h2, hc]
            simp [awaiting, upcoming, he, sent]
          · simp only [if_neg hcc]
            rw [h2]
            congr 2
            unfold upcoming
            simp only [if_neg hcc]
            rw [sent, if_neg (fun h => hcc h.symm)]
        · intro c' y e hx hee
          simp only [setConn] at hx hee
          by_cases hcc : c' = c
          · subst hcc
            simp only [if_true, Option.some.injEq] at hx hee
            subst hx hee
            rfl
          · simp only [if_neg hcc] at hx hee; exact h3 c' y e hx hee
        · intro c' hx
          simp only [setConn] at hx
          by_cases hcc : c' = c
          · simp [hcc] at hx
          · simp only [if_neg hcc] at hx ⊢; exact h4 c' hx
  | iterate c w =>
    by_cases hr : s.ready p c = true
    · have hst : s.step env p (.iterate c w) = { s with sys := s.sys.step env p (.iterate c w) } := if_pos hr
      rw [hst, show counted p rest s es (.iterate c w) = [.iterate c w] from if_pos hr]
      show Foresees _ (t.step env p (.iterate c w)) _
      unfold Net.ready at hr
      cases hc : s.sys.conns c with
      | none => rw [hc] at hr; simp at hr
      | some x =>
        rw [hc] at hr
        have ht : t.conns c = some (awaiting x (upcoming s rest (.iterate c w :: es) c)) := by rw [h2, hc]; rfl
        have hit : (awaiting x (upcoming s rest (.iterate c w :: es) c)).iterate env p t.shared w =
            ((x.iterate env p s.sys.shared w).1,
              awaiting (x.iterate env p s.sys.shared w).2 (upcoming s rest (.iterate c w :: es) c)) := by
          rw [h1]
          cases he : s.ended c with
          | none =>
            rw [he] at hr
            refine iterate_awaiting env p s.sys.shared x w _ ?_
            intro hd
            simp [hd] at hr
          | some e =>
            have hup : upcoming s rest (.iterate c w :: es) c = ⟨[], e⟩ := by simp only [upcoming, he]
            have hsame : ∀ y : Conn, y.input.fin = e → awaiting y ⟨[], e⟩ = y := by
              intro y hy
              simp only [awaiting, List.append_nil, ← hy]
            rw [hup, hsame x (h3 c x e hc he), hsame _ (by rw [iterate_fin]; exact h3 c x e hc he)]
        by_cases hrun' : x.status = .running
        · have hrt : (awaiting x (upcoming s rest (.iterate c w :: es) c)).status = .running := hrun'
          simp only [Sys.step, hc, ht, if_pos hrun', if_pos hrt, hit]
          refine ⟨rfl, ?_, ?_, ?_⟩
          · intro c'
            simp only [setConn]
            by_cases hcc : c' = c
            · subst hcc
              simp only [if_true]
              rfl
            · simp only [if_neg hcc]; exact h2 c'
          · intro c' y e hx hee
            simp only [setConn] at hx
            by_cases hcc : c' = c
            · subst hcc
              simp only [if_true, Option.some.injEq] at hx
              subst hx
              rw [iterate_fin]
              exact h3 c' x e hc hee
            · simp only [if_neg hcc] at hx; exact h3 c' y e hx hee
          · intro c' hx
            simp only [setConn] at hx
            by_cases hcc : c' = c
            · simp [hcc] at hx
            · simp only [if_neg hcc] at hx; exact h4 c' hx
        · have hrt : (awaiting x (upcoming s rest (.iterate c w :: es) c)).status ≠ .running := hrun'
          simp only [Sys.step, hc, ht, if_neg hrun', if_neg hrt]
          exact ⟨h1, h2, h3, h4⟩
    · have hst : s.step env p (.iterate c w) = s := if_neg hr
      rw [hst, show counted p rest s es (.iterate c w) = [] from if_neg hr]
      exact ⟨h1, h2, h3, h4⟩
  | cancel c =>
    show Foresees { s with sys := s.sys.step env p (.cancel c) } (t.step env p (.cancel c)) _
    cases hc : s.sys.conns c with
    | none =>
      have ht : t.conns c = none := by rw [h2, hc]; rfl
      simp only [Sys.step, hc, ht]
      exact ⟨h1, h2, h3, h4⟩
    | some x =>
      have ht : t.conns c = some (awaiting x (upcoming s rest (.cancel c :: es) c)) := by rw [h2, hc]; rfl
      by_cases hrun' : x.status = .running
      · have hrt : (awaiting x (upcoming s rest (.cancel c :: es) c)).status = .running := hrun'
        simp only [Sys.step, hc, ht, if_pos hrun', if_pos hrt]
        refine ⟨h1, ?_, ?_, ?_⟩
        · intro c'
          simp only [setConn]
          by_cases hcc : c' = c
          · subst hcc
            simp only [if_true]
            rfl
          · simp only [if_neg hcc]; exact h2 c'
        · intro c' y e hx hee
          simp only [setConn] at hx
          by_cases hcc : c' = c
          · subst hcc
            simp only [if_true, Option.some.injEq] at hx
            subst hx
            exact h3 c' x e hc hee
          · simp only [if_neg hcc] at hx; exact h3 c' y e hx hee
        · intro c' hx
          simp only [setConn] at hx
          by_cases hcc : c' = c
          · simp [hcc] at hx
          · simp only [if_neg hcc] at hx; exact h4 c' hx
      · have hrt : (awaiting x (upcoming s rest (.cancel c :: es) c)).status ≠ .running := hrun'
        simp only [Sys.step, hc, ht, if_neg hrun', if_neg hrt]
        exact ⟨h1, h2, h3, h4⟩
  | addDevice d =>
    exact foresees_same env p rest s t _ _ (fun c => upcoming_congr rfl (fun _ => rfl)) ⟨h1, h2, h3, h4⟩ _ (.inl ⟨d, rfl⟩)
  | removeDevice id =>
    exact foresees_same env p rest s t _ _ (fun c => upcoming_congr rfl (fun _ => rfl)) ⟨h1, h2, h3, h4⟩ _
      (.inr (.inl ⟨id, rfl⟩))
  | user f =>
    exact foresees_same env p rest s t _ _ (fun c => upcoming_congr rfl (fun _ => rfl)) ⟨h1, h2, h3, h4⟩ _
      (.inr (.inr ⟨f, _, rfl⟩))

theorem foresees_run {σ} (env : Env σ) (p : Profile) (rest : Nat → Stream) (es : List (NetEvent σ)) :
    ∀ (s : Net σ) (t : Sys σ), Foresees s t (upcoming s rest es) →
      Foresees (s.run env p es) (t.run env p (hindsight env p rest s es)) (upcoming (s.run env p es) rest []) := by
  induction es with
  | nil => intro s t h; exact h
  | cons e es ih =>
    intro s t h
    have hrun : ∀ l : List (Event σ), t.run env p (l ++ hindsight env p rest (s.step env p e) es)
        = (t.run env p l).run env p (hindsight env p rest (s.step env p e) es) := by
      intro l; simp only [Sys.run, List.foldl_append]
    show Foresees ((s.step env p e).run env p es) _ (upcoming ((s.step env p e).run env p es) rest [])
    rw [hindsight, hrun]
    exact ih _ _ (foresees_step env p rest e es s t h)

theorem sys_step_fin {σ} (env : Env σ) (p : Profile) (s : Sys σ) (e : Event σ) (c : Nat) (y : Conn)
    (hy : (s.step env p e).conns c = some y) :
    (∃ x, s.conns c = some x ∧ y.input.fin = x.input.fin) ∨
      (∃ i, e = .connect c i ∧ s.conns c = none ∧ y = Conn.new i) := by
  cases e with
  | connect c' i =>
    cases hc : s.conns c' with
    | some x => simp only [Sys.step, hc] at hy; exact .inl ⟨y, hy, rfl⟩
    | none =>
      simp only [Sys.step, hc, setConn] at hy
      split at hy
      · rename_i h; subst h
        exact .inr ⟨i, rfl, hc, (Option.some.inj hy).symm⟩
      · exact .inl ⟨y, hy, rfl⟩
  | iterate c' w =>
    cases hc : s.conns c' with
    | none => simp only [Sys.step, hc] at hy; exact .inl ⟨y, hy, rfl⟩
    | some x =>
      by_cases hr : x.status = .running
      · simp only [Sys.step, hc, if_pos hr, setConn] at hy
        split at hy
        · rename_i h; subst h
          refine .inl ⟨x, hc, ?_⟩
          rw [← Option.some.inj hy]
          exact iterate_fin env p s.shared x w
        · exact .inl ⟨y, hy, rfl⟩
      · simp only [Sys.step, hc, if_neg hr] at hy; exact .inl ⟨y, hy, rfl⟩
  | cancel c' =>
    cases hc : s.conns c' with
    | none => simp only [Sys.step, hc] at hy; exact .inl ⟨y, hy, rfl⟩
    | some x =>
      by_cases hr : x.status = .running
      · simp only [Sys.step, hc, if_pos hr, setConn] at hy
        split at hy
        · rename_i h; subst h
          refine .inl ⟨x, hc, ?_⟩
          rw [← Option.some.inj hy]
        · exact .inl ⟨y, hy, rfl⟩
      · simp only [Sys.step, hc, if_neg hr] at hy; exact .inl ⟨y, hy, rfl⟩
  | addDevice d => exact .inl ⟨y, hy, rfl⟩
  | removeDevice id => exact .inl ⟨y, hy, rfl⟩
  | user f => exact .inl ⟨y, hy, rfl⟩

/-- An open connection's placeholder end. -/
def OpenFin {σ} (s : Net σ) : Prop :=
  ∀ c x, s.sys.conns c = some x → s.ended c = none → x.input.fin = .unexpectedEof

theorem openFin_sys {σ} (env : Env σ) (p : Profile) (s : Net σ) (h : OpenFin s) (e : Event σ)
    (he : ∀ c i, e = .connect c i → i.fin = .unexpectedEof) : OpenFin { s with sys := s.sys.step env p e } := by
  intro c y hy hn
  rcases sys_step_fin env p s.sys e c y hy with ⟨x, hx, hf⟩ | ⟨i, hi, _, rfl⟩
  · rw [hf]; exact h c x hx hn
  · exact he c i hi

theorem openFin_step {σ} (env : Env σ) (p : Profile) (s : Net σ) (h : OpenFin s) (e : NetEvent σ) :
    OpenFin (s.step env p e) := by
  cases e with
  | connect c => exact openFin_sys env p s h _ (by rintro _ _ ⟨⟩; rfl)
  | arrive c bs =>
    simp only [Net.step]
    split
    · rename_i x hx he
      intro c' y hy hn
      simp only [setConn] at hy
      split at hy
      · rename_i hcc
        rw [← Option.some.inj hy]
        exact h c x hx he
      · exact h c' y hy hn
    · exact h
  | hangup c e =>
    simp only [Net.step]
    split
    · rename_i x hx he
      intro c' y hy hn
      simp only [setConn] at hy hn
      by_cases hcc : c' = c
      · simp [hcc] at hn
      · simp only [if_neg hcc] at hy hn; exact h c' y hy hn
    · exact h
  | iterate c w =>
    simp only [Net.step]
    split
    · exact openFin_sys env p s h _ (by rintro _ _ ⟨⟩)
    · exact h
  | cancel c => exact openFin_sys env p s h _ (by rintro _ _ ⟨⟩)
  | addDevice d => exact openFin_sys env p s h _ (by rintro _ _ ⟨⟩)
  | removeDevice id => exact openFin_sys env p s h _ (by rintro _ _ ⟨⟩)
  | user f => exact openFin_sys env p s h _ (by rintro _ _ ⟨⟩)

theorem openFin_run {σ} (env : Env σ) (p : Profile) (es : List (NetEvent σ)) :
    ∀ (s : Net σ), OpenFin s → OpenFin (s.run env p es) := by
  induction es with
  | nil => intro s h; exact h
  | cons e es ih => intro s h; exact ih _ (openFin_step env p s h e)

theorem foresees_init {σ} (devices : List Device) (w : World σ) (up : Nat → Stream) :
    Foresees (Net.init devices w) (Sys.init devices w) up :=
  ⟨rfl, fun _ => rfl, by intro c x e h; simp [Net.init, Sys.init] at h, fun _ _ => rfl⟩

theorem fresh_join {σ} (env : Env σ) (p : Profile) (l : List (Event σ)) :
    ∀ (s : Sys σ) (l' : List (Event σ)), Fresh env p s l → Fresh env p (s.run env p l) l' →
      Fresh env p s (l ++ l') := by
  induction l with
  | nil => intro s l' _ h; exact h
  | cons e l ih => intro s l' h h'; exact ⟨h.1, ih _ l' h.2 h'⟩

theorem fresh_hindsight {σ} (env : Env σ) (p : Profile) (rest : Nat → Stream) (es : List (NetEvent σ)) :
    ∀ (s : Net σ) (t : Sys σ), Foresees s t (upcoming s rest es) → FreshNet env p s es →
      Fresh env p t (hindsight env p rest s es) := by
  induction es with
  | nil => intro s t _ _; exact True.intro
  | cons e es ih =>
    intro s t h hf
    rw [hindsight]
    refine fresh_join env p _ t _ ?_ (ih _ _ (foresees_step env p rest e es s t h) hf.2)
    have hsh := h.shared
    cases e with
    | connect c => exact ⟨True.intro, True.intro⟩
    | arrive c bs => exact True.intro
    | hangup c e => exact True.intro
    | iterate c w =>
      show Fresh env p t (if s.ready p c then [.iterate c w] else [])
      split
      · exact ⟨True.intro, True.intro⟩
      · exact True.intro
    | cancel c => exact ⟨True.intro, True.intro⟩
    | addDevice d => exact ⟨by rw [hsh]; exact hf.1, True.intro⟩
    | removeDevice id => exact ⟨True.intro, True.intro⟩
    | user f => exact ⟨True.intro, True.intro⟩

end Usbip
