import Verif.Lemmas.Examples
import Verif.Lemmas.Reference
import Verif.Props.Handlers
import Verif.Props.Server
import Verif.Spec.Programs
/-! Helper lemmas about the example programs. -/

namespace Usbip
open Spec

/-- As long as it runs, the program is its server. -/
theorem progRun_sys {τ α} (obj : Endpoint → SetupPacket → τ → HRes × τ) (feed : τ → τ) (act : α → τ → τ) (a : α)
    (g : ProgEvent → HostedEvent Unit α) (hf : act a = feed)
    (h1 : ∀ c i, g (.connect c i) = .server (.connect c i)) (h2 : ∀ c w, g (.iterate c w) = .server (.iterate c w))
    (h3 : ∀ c, g (.cancel c) = .server (.cancel c)) (h4 : g .tick = .app a) (p : Profile)
    (es : List ProgEvent) : ∀ (S s : Sys (Unit × τ)), progRun obj feed p (some S) es = some s →
    s = S.run (hosting obj 0 noHandlers) p ((es.map g).map (HostedEvent.event act)) := by
  induction es with
  | nil => intro S s h; simp only [progRun, List.foldl_nil, Option.some.injEq] at h; subst h; rfl
  | cons e es ih =>
    intro S s h
    have hnone : ∀ es, progRun obj feed p none es = none := by
      intro es
      induction es with
      | nil => rfl
      | cons e es ih => exact ih
    have key : ∀ S', progStep obj feed p (some S) e = some S' →
        S' = S.step (hosting obj 0 noHandlers) p ((g e).event act) := by
      intro S' hs
      cases e with
      | connect c i => simp only [progStep, Option.some.injEq] at hs; rw [h1, ← hs]; rfl
      | iterate c w => simp only [progStep, Option.some.injEq] at hs; rw [h2, ← hs]; rfl
      | cancel c => simp only [progStep, Option.some.injEq] at hs; rw [h3, ← hs]; rfl
      | tick =>
        simp only [progStep] at hs
        split at hs
        · simp at hs
        · simp only [Option.some.injEq] at hs
          rw [h4, ← hs, ← hf]
          rfl
    have hrun : progRun obj feed p (some S) (e :: es) = progRun obj feed p (progStep obj feed p (some S) e) es := rfl
    rw [hrun] at h
    cases hs : progStep obj feed p (some S) e with
    | none => rw [hs, hnone] at h; simp at h
    | some S' =>
      rw [hs] at h
      rw [ih S' s h, key S' hs]
      rfl

theorem progRun_snoc {τ} (obj : Endpoint → SetupPacket → τ → HRes × τ) (feed : τ → τ) (p : Profile)
    (S : Option (Sys (Unit × τ))) (es : List ProgEvent) (e : ProgEvent) :
    progRun obj feed p S (es ++ [e]) = progStep obj feed p (progRun obj feed p S es) e := by
  simp only [progRun, List.foldl_append, List.foldl_cons, List.foldl_nil]

theorem observations_snoc {σ τ α} (env : Env (σ × τ)) (act : α → τ → τ) (h : Nat) (p : Profile)
    (es : List (HostedEvent σ α)) (e : HostedEvent σ α) : ∀ s : Sys (σ × τ),
    observations env act h p s (es ++ [e]) = observations env act h p s es ++
      (observe env act h p (s.run env p (es.map (HostedEvent.event act))) e).toList := by
  induction es with
  | nil => intro s; simp only [List.nil_append, observations, List.append_nil]; rfl
  | cons a es ih =>
    intro s
    rw [List.cons_append, observations, ih, observations, List.append_assoc]
    rfl

/-- The next poll takes the first item that no poll has taken yet. -/
theorem expected_snoc (ops : List KOp) (ep : Endpoint) (st : SetupPacket) (he : DataIn ep) :
    ∀ (evs : List KeyReport) (n : Nat),
    expected codeUp evs n (ops ++ [.urb ep st]) = expected codeUp evs n ops ++
      [(script codeUp (evs ++ queued ops)).getD
        (n + ((expected codeUp evs n ops).filter (fun b => !b.isEmpty)).length) []] := by
  have hne : ∀ (evs : List KeyReport) (n : Nat) (b : Bytes), (script codeUp evs)[n]? = some b → b.isEmpty = false := by
    intro evs n b hb
    have := List.mem_of_getElem? hb
    simp only [script, List.mem_flatMap, List.mem_cons, List.not_mem_nil, or_false] at this
    obtain ⟨r, _, h | h⟩ := this
    · rw [h]; rfl
    · rw [h]; decide
  induction ops with
  | nil =>
    intro evs n
    simp only [List.nil_append, expected, if_pos he, queued, List.filterMap_nil, List.append_nil,
      List.filter_nil, List.length_nil, Nat.add_zero, List.getD_eq_getElem?_getD]
    cases (script codeUp evs)[n]? <;> rfl
  | cons op ops ih =>
    intro evs n
    cases op with
    | push r =>
      have hq : evs ++ queued (.push r :: ops) = (evs ++ [r]) ++ queued ops := by
        simp only [queued, List.filterMap_cons, List.append_assoc]; rfl
      rw [List.cons_append, expected, ih, expected, hq]
    | urb ep' st' =>
      have hq : queued (.urb ep' st' :: ops) = queued ops := rfl
      rw [List.cons_append, expected, expected, hq]
      by_cases hd : DataIn ep'
      · rw [if_pos hd, if_pos hd]
        cases hb : (script codeUp evs)[n]? with
        | none =>
          dsimp only
          rw [ih, List.cons_append, List.filter_cons_of_neg (by simp)]
        | some b =>
          dsimp only
          rw [ih, List.cons_append, List.filter_cons_of_pos (by rw [hne evs n b hb]; rfl), List.length_cons]
          congr 4
          omega
      · rw [if_neg hd, if_neg hd, ih]

theorem script_typing (n : Nat) : script codeUp (List.replicate n keyOne) = typing n := by
  induction n with
  | zero => rfl
  | succ n ih =>
    rw [List.replicate_succ, script, List.flatMap_cons, ← script, ih]
    rfl

theorem typed_keyboard (es : List ProgEvent) :
    typed (es.map ProgEvent.keyboard) = List.replicate (seconds es) keyOne := by
  induction es with
  | nil => rfl
  | cons e es ih =>
    have : typed ((e :: es).map ProgEvent.keyboard) =
        (match e with | .tick => [keyOne] | _ => []) ++ typed (es.map ProgEvent.keyboard) := by
      cases e <;> rfl
    rw [this, ih]
    cases e <;> simp [seconds, List.replicate_succ]

theorem spoken_serial (es : List ProgEvent) :
    spoken (es.map ProgEvent.serial) = List.replicate (seconds es) 97 := by
  induction es with
  | nil => rfl
  | cons e es ih =>
    have : spoken ((e :: es).map ProgEvent.serial) =
        (match e with | .tick => [97] | _ => []) ++ spoken (es.map ProgEvent.serial) := by
      cases e <;> rfl
    rw [this, ih]
    cases e <;> simp [seconds, List.replicate_succ]

/-- Without additions and removals the server keeps the devices it started with. -/
theorem only_device {σ} (env : Env σ) (p : Profile) (d : Device) (w : World σ) (es : List (Event σ))
    (hn : ∀ e ∈ es, (∀ d, e ≠ .addDevice d) ∧ ∀ id, e ≠ .removeDevice id) (c : Nat) (id : Bytes)
    (hh : Holds ((Sys.init [d] w).run env p es) c id) :
    amGet id ((Sys.init [d] w).run env p es).shared.used = some d := by
  have hf : ∀ (es : List (Event σ)) (s : Sys σ), (∀ e ∈ es, (∀ d, e ≠ .addDevice d) ∧ ∀ id, e ≠ .removeDevice id) →
      Fresh env p s es ∧ ∀ l, ledger env p s l es = l := by
    intro es
    induction es with
    | nil => intro s _; exact ⟨trivial, fun _ => rfl⟩
    | cons e es ih =>
      intro s hn
      obtain ⟨i1, i2⟩ := ih (s.step env p e) (fun e' h' => hn e' (List.mem_cons_of_mem _ h'))
      have he := hn e (List.mem_cons_self ..)
      cases e with
      | addDevice d => exact absurd rfl (he.1 d)
      | removeDevice id => exact absurd rfl (he.2 id)
      | connect c i => exact ⟨⟨trivial, i1⟩, fun l => i2 l⟩
      | iterate c w => exact ⟨⟨trivial, i1⟩, fun l => i2 l⟩
      | cancel c => exact ⟨⟨trivial, i1⟩, fun l => i2 l⟩
      | user f => exact ⟨⟨trivial, i1⟩, fun l => i2 l⟩
  obtain ⟨h1, h2⟩ := hf es (Sys.init [d] w) hn
  have hd : ([d].map Device.busId).Nodup := by simp
  obtain ⟨⟨d', _, hg⟩, _⟩ := (C22_recorded env p [d] w es hd h1).2 c id hh
  have hp := C23_conserved env p [d] w es hd h1
  rw [h2] at hp
  have hm : d' ∈ onServer ((Sys.init [d] w).run env p es).shared :=
    List.mem_append_right _ (List.mem_map.mpr ⟨(id, d'), amGet_mem hg, rfl⟩)
  have := hp.subset hm
  simp only [List.mem_singleton] at this
  rw [hg, this]

/-- The submit a request is. -/
theorem job_of_parse_setup {σ} (p : Profile) (s : Sys σ) (c : Nat) (x : Conn) (id : Bytes) (d : Device) (ids : Bytes)
    (direction endpoint len : Nat) (setup data rest : Bytes) (hx : s.conns c = some x) (hr : x.status = .running)
    (hc : x.current = some id) (hg : amGet id s.shared.used = some d)
    (hp : parse p.debugAssertions x.input.bytes = .request (.transfer ids direction endpoint len setup data) rest) :
    ∃ j, job p s c = some j ∧ j.device = d ∧ j.header.direction.toNat = direction ∧ j.header.ep.toNat = endpoint ∧
      j.setup = setup := by
  have h := parse_read p x.input.bytes x.input.fin
  rw [hp] at h
  obtain ⟨cmd, h1, h2⟩ := h
  cases cmd with
  | submit hd tf len' sf np iv setup' data' iso =>
    simp only [Cmd.request, Request.transfer.injEq] at h2
    obtain ⟨_, e1, e2, _, e3, _⟩ := h2
    refine ⟨⟨d, hd, len', setup', data'⟩, ?_, rfl, e1, e2, e3⟩
    unfold job
    rw [hx]
    dsimp only
    rw [if_pos hr, show readCommand p x.input = _ from h1, hc]
    simp only [Option.bind_some, hg, Option.map_some]
  | reqDevlist _ => simp [Cmd.request] at h2
  | reqImport _ _ => simp [Cmd.request] at h2
  | unlink _ _ => simp [Cmd.request] at h2

theorem job_of_parse {σ} (p : Profile) (s : Sys σ) (c : Nat) (x : Conn) (id : Bytes) (d : Device) (ids : Bytes)
    (direction endpoint len : Nat) (setup data rest : Bytes) (hx : s.conns c = some x) (hr : x.status = .running)
    (hc : x.current = some id) (hg : amGet id s.shared.used = some d)
    (hp : parse p.debugAssertions x.input.bytes = .request (.transfer ids direction endpoint len setup data) rest) :
    ∃ j, job p s c = some j ∧ j.device = d ∧ j.header.direction.toNat = direction ∧ j.header.ep.toNat = endpoint :=
  let ⟨j, h1, h2, h3, h4, _⟩ := job_of_parse_setup p s c x id d ids direction endpoint len setup data rest hx hr hc hg hp
  ⟨j, h1, h2, h3, h4⟩

end Usbip
