import Verif.Lemmas.Listen
import Verif.Lemmas.Network
import Verif.Lemmas.Programs
import Verif.Spec.Main
/-! Helper lemmas about the example programs as processes. -/

namespace Usbip
open Spec

/-! ## Runs -/

/-- The main loop cannot go on. -/
def Program.stops {σ} (P : Program σ) (s : Proc σ) : MainEvent → Bool
  | .tick => match P.lock with
    | some h => s.net.sys.shared.world.ifPoisoned h
    | none => false
  | _ => false

theorem Program.step_some {σ} (P : Program σ) (p : Profile) (s : Proc σ) (e : MainEvent) :
    P.step p (some s) e = if P.stops s e then none else some (s.step P.env p (e.proc P.feed)) := by
  cases e <;> try rfl
  simp only [Program.step, Program.stops]
  split <;> rename_i hl <;> simp [hl]

theorem Program.foldl_none {σ} (P : Program σ) (p : Profile) (es : List MainEvent) :
    es.foldl (P.step p) none = none := by
  induction es with
  | nil => rfl
  | cons e es ih => exact ih

theorem progRun_none {τ} (obj : Endpoint → SetupPacket → τ → HRes × τ) (feed : τ → τ) (p : Profile)
    (es : List ProgEvent) : progRun obj feed p none es = none := by
  induction es with
  | nil => rfl
  | cons e es ih => exact ih

/-- As long as a program runs, its process is one with the same events. -/
theorem Program.foldl_some {σ} (P : Program σ) (p : Profile) (es : List MainEvent) : ∀ (s s' : Proc σ),
    es.foldl (P.step p) (some s) = some s' → s' = s.run P.env p (es.map (MainEvent.proc P.feed)) := by
  induction es with
  | nil => intro s s' h; exact (Option.some.inj h).symm
  | cons e es ih =>
    intro s s' h
    rw [List.foldl_cons, P.step_some] at h
    split at h
    · rw [P.foldl_none] at h; simp at h
    · exact ih _ _ h

/-! ## Requests seen with everything that has still to arrive -/

theorem job_ready {σ} (p : Profile) (n : Net σ) (c : Nat) (j : Job) (h : job p n.sys c = some j) :
    n.ready p c = true := by
  unfold job at h
  unfold Net.ready
  cases hc : n.sys.conns c with
  | none => rw [hc] at h; simp at h
  | some x =>
    rw [hc] at h
    dsimp only at h ⊢
    cases n.ended c with
    | some _ => rfl
    | none =>
      dsimp only
      have he := early_readCommand p x.input.bytes
      cases hd : (readCommand p : Rd Arrived Cmd) ⟨x.input.bytes⟩ with
      | diverge =>
        rw [hd] at he
        rw [show (readCommand p : Rd Stream Cmd) x.input = _ from he x.input.fin] at h
        simp at h
      | _ => rfl

/-- A request that is complete is the same whatever comes after it. -/
theorem job_foresees {σ} (p : Profile) (n : Net σ) (t : Sys σ) (up : Nat → Stream) (h : Foresees n t up) (c : Nat)
    (hu : ∀ e, n.ended c = some e → up c = ⟨[], e⟩) (hr : n.ready p c = true) : job p t c = job p n.sys c := by
  unfold job
  rw [h.conns c, h.shared]
  cases hc : n.sys.conns c with
  | none => rfl
  | some x =>
    simp only [Option.map_some, awaiting]
    split
    · have : ∀ r, (readCommand p : Rd Stream Cmd) x.input = r →
          match r with
          | .ok (cmd, _) => ∃ m, (readCommand p : Rd Stream Cmd) ⟨x.input.bytes ++ (up c).bytes, (up c).fin⟩ = .ok (cmd, m)
          | r => (readCommand p : Rd Stream Cmd) ⟨x.input.bytes ++ (up c).bytes, (up c).fin⟩ = r := by
        rintro r rfl
        cases hen : n.ended c with
        | some e =>
          have hx : (⟨x.input.bytes ++ (up c).bytes, (up c).fin⟩ : Stream) = x.input := by
            rw [hu e hen, ← h.fin c x e hc hen, List.append_nil]
          rw [hx]
          cases (readCommand p : Rd Stream Cmd) x.input with
          | ok q => exact ⟨_, rfl⟩
          | _ => rfl
        | none =>
          have he := early_readCommand p x.input.bytes
          unfold Net.ready at hr
          rw [hc, hen] at hr
          dsimp only at hr
          have hx : (⟨x.input.bytes ++ [], x.input.fin⟩ : Stream) = x.input := by rw [List.append_nil]
          cases hd : (readCommand p : Rd Arrived Cmd) ⟨x.input.bytes⟩ with
          | diverge => rw [hd] at hr; simp at hr
          | ok q =>
            obtain ⟨cmd, r⟩ := q
            rw [hd] at he
            have h0 := he [] x.input.fin
            rw [hx] at h0
            rw [h0]
            exact ⟨_, he _ _⟩
          | err e =>
            rw [hd] at he
            have h0 := he [] x.input.fin
            rw [hx] at h0
            rw [h0]
            exact he _ _
          | panic =>
            rw [hd] at he
            have h0 := he [] x.input.fin
            rw [hx] at h0
            rw [h0]
            exact he _ _
      have h2 := this _ rfl
      cases hq : (readCommand p : Rd Stream Cmd) x.input with
      | ok q =>
        obtain ⟨cmd, r⟩ := q
        rw [hq] at h2
        obtain ⟨m, hm⟩ := h2
        rw [hm]
        cases cmd <;> rfl
      | err e => rw [hq] at h2; rw [h2]
      | panic => rw [hq] at h2; rw [h2]
      | diverge => rw [hq] at h2; rw [h2]
    · rfl

theorem newlySent_foresees {σ} {n n' : Net σ} {t t' : Sys σ} {up up' : Nat → Stream} (h : Foresees n t up)
    (h' : Foresees n' t' up') (c : Nat) : newlySent t t' c = newlySent n.sys n'.sys c := by
  unfold newlySent
  rw [h.conns c, h'.conns c]
  cases n.sys.conns c <;> cases n'.sys.conns c <;> rfl

/-! ## A process as a program that gets all input at once -/

/-- What an event means for the accepted connections. -/
def netOf {σ} (feed : σ → σ) (s : Proc σ) : MainEvent → List (NetEvent σ)
  | .bind _ | .dial _ | .acceptErr => []
  | .acceptOk =>
    match s.calls 0 with
    | some (.listening (c :: _)) =>
      match s.front c with
      | .waiting bs e => .connect c :: .arrive c bs :: (e.map (NetEvent.hangup c)).toList
      | _ => []
    | _ => []
  | .arrive c bs => match s.front c with | .accepted => [.arrive c bs] | _ => []
  | .hangup c e => match s.front c with | .accepted => [.hangup c e] | _ => []
  | .iterate c w => [.iterate c w]
  | .tick => [.user feed]

theorem netOf_run {σ} (env : Env σ) (p : Profile) (feed : σ → σ) (s : Proc σ) (h : PInv s) (e : MainEvent) :
    (s.step env p (e.proc feed)).net = s.net.run env p (netOf feed s e) := by
  cases e with
  | bind b => simp only [MainEvent.proc, Proc.step, netOf]; split <;> rfl
  | dial c => simp only [MainEvent.proc, Proc.step, netOf]; split <;> rfl
  | acceptErr => rfl
  | acceptOk =>
    simp only [MainEvent.proc, Proc.step, netOf]
    cases hk : s.calls 0 with
    | none => rfl
    | some a =>
      cases a with
      | listening l =>
        cases l with
        | nil => rfl
        | cons c q =>
          dsimp only
          cases hw : s.front c with
          | waiting bs e =>
            have hn : s.net.sys.conns c = none := Classical.byContradiction fun hn => by
              rw [(h.conn c).mp hn] at hw; simp at hw
            exact (run_accept env p s.net c bs e hn (h.fresh c hn)).symm
          | _ => rfl
      | _ => rfl
  | arrive c bs =>
    simp only [MainEvent.proc, Proc.step, netOf]
    cases hw : s.front c with
    | waiting b e => cases e <;> rfl
    | _ => rfl
  | hangup c er =>
    simp only [MainEvent.proc, Proc.step, netOf]
    cases hw : s.front c with
    | waiting b e => cases e <;> rfl
    | _ => rfl
  | iterate c w => rfl
  | tick => rfl

/-- The same for a history. -/
def netAll {σ} (env : Env σ) (p : Profile) (feed : σ → σ) : Proc σ → List MainEvent → List (NetEvent σ)
  | _, [] => []
  | s, e :: es => netOf feed s e ++ netAll env p feed (s.step env p (e.proc feed)) es

/-- An event of a program as one of its server. -/
def ProgEvent.on {τ} (feed : τ → τ) (e : ProgEvent) : Event (Unit × τ) := e.hosted.event (fun _ => feed)

theorem foresees_block {σ} (env : Env σ) (p : Profile) (rest : Nat → Stream) (b es : List (NetEvent σ)) :
    ∀ (s : Net σ) (t : Sys σ), Foresees s t (upcoming s rest (b ++ es)) →
      ∃ pre, (match b with
          | [] => pre = []
          | .connect c :: b' => (∀ x ∈ b', (∃ bs, x = .arrive c bs) ∨ ∃ e, x = .hangup c e) → ∃ i, pre = [.connect c i]
          | [.arrive _ _] | [.hangup _ _] => pre = []
          | [.iterate c w] => pre = if s.ready p c then [.iterate c w] else []
          | [.user f crash] => pre = [.user f crash]
          | _ => True) ∧
        Foresees (s.run env p b) (t.run env p pre) (upcoming (s.run env p b) rest es) := by
  have gen : ∀ (b : List (NetEvent σ)) (s : Net σ) (t : Sys σ), Foresees s t (upcoming s rest (b ++ es)) →
      ∃ pre, ((∀ x ∈ b, (∃ c bs, x = .arrive c bs) ∨ ∃ c e, x = .hangup c e) → pre = []) ∧
        Foresees (s.run env p b) (t.run env p pre) (upcoming (s.run env p b) rest es) := by
    intro b
    induction b with
    | nil => intro s t h; exact ⟨[], fun _ => rfl, h⟩
    | cons e b ih =>
      intro s t h
      obtain ⟨pre, h1, h2⟩ := ih _ _ (foresees_step env p rest e (b ++ es) s t h)
      refine ⟨counted p rest s (b ++ es) e ++ pre, ?_, ?_⟩
      · intro hb
        rw [h1 (fun x hx => hb x (List.mem_cons_of_mem _ hx)), List.append_nil]
        rcases hb e (List.mem_cons_self ..) with ⟨_, _, rfl⟩ | ⟨_, _, rfl⟩ <;> rfl
      · rw [Sys.run, List.foldl_append]
        exact h2
  intro s t h
  cases b with
  | nil => exact ⟨[], rfl, h⟩
  | cons e b =>
    obtain ⟨pre, h1, h2⟩ := gen b _ _ (foresees_step env p rest e (b ++ es) s t h)
    refine ⟨counted p rest s (b ++ es) e ++ pre, ?_, ?_⟩
    · cases e with
      | connect c =>
        intro hb
        rw [h1 (fun x hx => (hb x hx).imp (fun ⟨bs, e⟩ => ⟨c, bs, e⟩) (fun ⟨bs, e⟩ => ⟨c, bs, e⟩))]
        exact ⟨_, rfl⟩
      | arrive c bs => cases b with
        | nil => rw [h1 (by simp)]; rfl
        | cons => trivial
      | hangup c bs => cases b with
        | nil => rw [h1 (by simp)]; rfl
        | cons => trivial
      | iterate c w => cases b with
        | nil => rw [h1 (by simp)]; exact List.append_nil _
        | cons => trivial
      | user f => cases b with
        | nil => rw [h1 (by simp)]; rfl
        | cons => trivial
      | _ => cases b <;> trivial
    · rw [Sys.run, List.foldl_append]
      exact h2

/-- One event of the process, as events of the program. -/
theorem main_sim_step {τ} (env : Env (Unit × τ)) (p : Profile) (feed : τ → τ) (rest : Nat → Stream)
    (s : Proc (Unit × τ)) (t : Sys (Unit × τ)) (hI : PInv s) (e : MainEvent) (later : List (NetEvent (Unit × τ)))
    (h : Foresees s.net t (upcoming s.net rest (netOf (fun u => (u.1, feed u.2)) s e ++ later))) :
    ∃ pre : List ProgEvent,
      Foresees (s.step env p (e.proc (fun u => (u.1, feed u.2)))).net (t.run env p (pre.map (ProgEvent.on feed)))
        (upcoming (s.step env p (e.proc (fun u => (u.1, feed u.2)))).net rest later) ∧
      (match e with
       | .iterate c w => pre = if s.net.ready p c then [.iterate c w] else []
       | .tick => pre = [.tick]
       | _ => pre = [] ∨ ∃ c i, pre = [.connect c i]) := by
  obtain ⟨pre, h1, h2⟩ := foresees_block env p rest _ later _ _ h
  rw [← netOf_run env p _ s hI e] at h2
  have nothing : pre = [] → ∃ pre : List ProgEvent,
      Foresees (s.step env p (e.proc (fun u => (u.1, feed u.2)))).net (t.run env p (pre.map (ProgEvent.on feed)))
        (upcoming (s.step env p (e.proc (fun u => (u.1, feed u.2)))).net rest later) ∧ pre = [] := by
    rintro rfl; exact ⟨[], h2, rfl⟩
  cases e with
  | bind b => obtain ⟨l, a, b⟩ := nothing h1; exact ⟨l, a, .inl b⟩
  | dial c => obtain ⟨l, a, b⟩ := nothing h1; exact ⟨l, a, .inl b⟩
  | acceptErr => obtain ⟨l, a, b⟩ := nothing h1; exact ⟨l, a, .inl b⟩
  | acceptOk =>
    simp only [netOf] at h1
    have none' : pre = [] → ∃ pre : List ProgEvent, Foresees (s.step env p (MainEvent.acceptOk.proc
        (fun u => (u.1, feed u.2)))).net (t.run env p (pre.map (ProgEvent.on feed)))
        (upcoming (s.step env p (MainEvent.acceptOk.proc (fun u => (u.1, feed u.2)))).net rest later) ∧
        (pre = [] ∨ ∃ c i, pre = [.connect c i]) := fun hp => by
      obtain ⟨l, a, b⟩ := nothing hp
      exact ⟨l, a, Or.inl b⟩
    cases hk : s.calls 0 with
    | none => rw [hk] at h1; exact none' h1
    | some a =>
      cases a with
      | listening l =>
        cases l with
        | nil => rw [hk] at h1; exact none' h1
        | cons c q =>
          rw [hk] at h1
          dsimp only at h1
          cases hw : s.front c with
          | waiting bs e =>
            rw [hw] at h1
            obtain ⟨i, rfl⟩ := h1 (by
              intro x hx
              rcases List.mem_cons.mp hx with rfl | hx
              · exact .inl ⟨_, rfl⟩
              · cases e with
                | none => simp at hx
                | some e => simp at hx; exact .inr ⟨_, hx⟩)
            exact ⟨[.connect c i], h2, .inr ⟨c, i, rfl⟩⟩
          | _ => rw [hw] at h1; exact none' h1
      | _ => rw [hk] at h1; exact none' h1
  | arrive c bs =>
    simp only [netOf] at h1
    have : pre = [] := by
      cases hf : s.front c <;> rw [hf] at h1 <;> exact h1
    obtain ⟨l, a, b⟩ := nothing this; exact ⟨l, a, .inl b⟩
  | hangup c bs =>
    simp only [netOf] at h1
    have : pre = [] := by
      cases hf : s.front c <;> rw [hf] at h1 <;> exact h1
    obtain ⟨l, a, b⟩ := nothing this; exact ⟨l, a, .inl b⟩
  | iterate c w =>
    simp only [netOf] at h1
    refine ⟨if s.net.ready p c then [.iterate c w] else [], ?_, rfl⟩
    rw [h1] at h2
    by_cases hr : s.net.ready p c = true
    · rw [if_pos hr] at h2 ⊢; exact h2
    · rw [if_neg hr] at h2 ⊢; exact h2
  | tick =>
    simp only [netOf] at h1
    subst h1
    exact ⟨[.tick], h2, rfl⟩

theorem progRun_append {τ} (obj : Endpoint → SetupPacket → τ → HRes × τ) (feed : τ → τ) (p : Profile)
    (S : Option (Sys (Unit × τ))) (es es' : List ProgEvent) :
    progRun obj feed p S (es ++ es') = progRun obj feed p (progRun obj feed p S es) es' := by
  simp only [progRun, List.foldl_append]

theorem observations_append {σ τ α} (env : Env (σ × τ)) (act : α → τ → τ) (h : Nat) (p : Profile)
    (es es' : List (HostedEvent σ α)) : ∀ s : Sys (σ × τ),
    observations env act h p s (es ++ es') = observations env act h p s es ++
      observations env act h p (s.run env p (es.map (HostedEvent.event act))) es' := by
  induction es with
  | nil => intro s; rfl
  | cons a es ih =>
    intro s
    rw [List.cons_append, observations, ih, observations, List.append_assoc]
    rfl

/-- What a program sends from its handler. -/
def progReplies {τ} (obj : Endpoint → SetupPacket → τ → HRes × τ) (feed : τ → τ) (p : Profile) (t : Sys (Unit × τ))
    (es : List ProgEvent) : List Sent :=
  (observations (hosting obj 0 noHandlers) (fun (_ : Unit) => feed) 0 p t (es.map ProgEvent.hosted)).filterMap Prod.snd

theorem progReplies_append {τ} (obj : Endpoint → SetupPacket → τ → HRes × τ) (feed : τ → τ) (p : Profile)
    (t : Sys (Unit × τ)) (es es' : List ProgEvent) :
    progReplies obj feed p t (es ++ es') = progReplies obj feed p t es ++
      progReplies obj feed p (t.run (hosting obj 0 noHandlers) p (es.map (ProgEvent.on feed))) es' := by
  unfold progReplies
  rw [List.map_append, observations_append, List.filterMap_append, List.map_map]
  rfl

/-- The history of a process, as one of the program: whether it ends, its state, the seconds, what is sent. -/
theorem main_sim {τ} (obj : Endpoint → SetupPacket → τ → HRes × τ) (feed : τ → τ) (d : Device) (t0 : τ) (p : Profile)
    (rest : Nat → Stream) (evs : List MainEvent) : ∀ (s : Proc (Unit × τ)) (t : Sys (Unit × τ)), PInv s →
    Foresees s.net t (upcoming s.net rest (netAll (hosting obj 0 noHandlers) p (fun u => (u.1, feed u.2)) s evs)) →
    ∃ es : List ProgEvent,
      (evs.foldl ((Program.feeding obj feed d t0).step p) (some s) = none ∧ progRun obj feed p (some t) es = none) ∨
      ∃ s' t', evs.foldl ((Program.feeding obj feed d t0).step p) (some s) = some s' ∧
        progRun obj feed p (some t) es = some t' ∧ Foresees s'.net t' (upcoming s'.net rest []) ∧
        seconds es = ticks evs ∧
        progReplies obj feed p t es = repliesFrom (Program.feeding obj feed d t0) p (some s) evs := by
  induction evs with
  | nil => intro s t hI h; exact ⟨[], .inr ⟨s, t, rfl, rfl, h, rfl, rfl⟩⟩
  | cons e evs ih =>
    intro s t hI h
    obtain ⟨pre, h1, h2⟩ := main_sim_step (hosting obj 0 noHandlers) p feed rest s t hI e _ h
    obtain ⟨es, h3⟩ := ih _ _ (hI.step _) h1
    have hsh : t.shared = s.net.sys.shared := h.shared
    have hfold : (e :: evs).foldl ((Program.feeding obj feed d t0).step p) (some s)
        = evs.foldl ((Program.feeding obj feed d t0).step p) ((Program.feeding obj feed d t0).step p (some s) e) := rfl
    have hstop : (Program.feeding obj feed d t0).stops s e = true ↔ e = .tick ∧ s.net.sys.shared.world.ifPoisoned 0 = true := by
      cases e <;> simp [Program.stops, Program.feeding]
    rw [hfold, Program.step_some]
    by_cases hs : (Program.feeding obj feed d t0).stops s e = true
    · obtain ⟨rfl, hp⟩ := hstop.mp hs
      refine ⟨[.tick], .inl ⟨?_, ?_⟩⟩
      · rw [if_pos hs, Program.foldl_none]
      · simp only [progRun, List.foldl_cons, List.foldl_nil, progStep, hsh, hp, if_true]
    · rw [if_neg hs]
      have hprog : progRun obj feed p (some t) pre =
          some (t.run (hosting obj 0 noHandlers) p (pre.map (ProgEvent.on feed))) := by
        cases e with
        | tick =>
          simp only at h2
          subst h2
          have : s.net.sys.shared.world.ifPoisoned 0 = false := by
            cases hp : s.net.sys.shared.world.ifPoisoned 0 with
            | false => rfl
            | true => exact absurd (hstop.mpr ⟨rfl, hp⟩) hs
          simp only [progRun, List.foldl_cons, List.foldl_nil, progStep, hsh, this, Bool.false_eq_true, if_false]
          rfl
        | iterate c w =>
          simp only at h2
          subst h2
          split <;> rfl
        | _ =>
          simp only at h2
          rcases h2 with rfl | ⟨c, i, rfl⟩ <;> rfl
      have hsec : seconds pre = ticks [e] := by
        cases e with
        | tick => simp only at h2; subst h2; rfl
        | iterate c w => simp only at h2; subst h2; split <;> rfl
        | _ => simp only at h2; rcases h2 with rfl | ⟨c, i, rfl⟩ <;> rfl
      have hrep : progReplies obj feed p t pre = (replied (Program.feeding obj feed d t0) p s e).toList := by
        cases e with
        | tick => simp only at h2; subst h2; rfl
        | iterate c w =>
          simp only at h2
          by_cases hr : s.net.ready p c = true
          · rw [if_pos hr] at h2
            subst h2
            have hj := job_foresees p s.net t _ h c (fun e he => by unfold upcoming; rw [he]) hr
            have hn := newlySent_foresees h h1 c
            simp only [progReplies, List.map_cons, List.map_nil, observations, ProgEvent.hosted, observe, replied, hj, hsh]
            cases job p s.net.sys c with
            | none => rfl
            | some j =>
              dsimp only
              cases j.urb 0 s.net.sys.shared.world with
              | none => rfl
              | some r =>
                simp only [Option.toList_some, List.append_nil, List.filterMap_cons, List.filterMap_nil]
                congr 2
          · rw [if_neg hr] at h2
            subst h2
            simp only [replied]
            cases hj : job p s.net.sys c with
            | none => rfl
            | some j => exact absurd (job_ready p s.net c j hj) hr
        | _ => simp only at h2; rcases h2 with rfl | ⟨c, i, rfl⟩ <;> rfl
      refine ⟨pre ++ es, ?_⟩
      rw [progRun_append, hprog]
      rcases h3 with ⟨h4, h5⟩ | ⟨s', t', h4, h5, h6, h7, h8⟩
      · exact .inl ⟨h4, h5⟩
      · refine .inr ⟨s', t', h4, h5, h6, ?_, ?_⟩
        · unfold seconds ticks at *
          rw [List.countP_append, hsec, h7, ← List.countP_append]
          rfl
        · rw [progReplies_append, hrep, repliesFrom, Program.step_some, if_neg hs]
          exact congrArg _ h8

/-- With nothing left to arrive, both are in the same state. -/
theorem foresees_all {σ} {n : Net σ} {t : Sys σ} (h : Foresees n t (upcoming n (fun _ => ⟨[], .unexpectedEof⟩) []))
    (ho : OpenFin n) : t = n.sys := by
  have hc : t.conns = n.sys.conns := by
    funext c
    rw [h.conns c]
    cases hx : n.sys.conns c with
    | none => rfl
    | some x =>
      simp only [Option.map_some, Option.some.injEq, awaiting, upcoming]
      cases he : n.ended c with
      | none => simp only [sent, List.append_nil, ← ho c x hx he]
      | some e => simp only [List.append_nil, ← h.fin c x e hx he]
  cases t with
  | mk sh cs =>
    simp only at hc
    rw [hc, show sh = n.sys.shared from h.shared]

theorem Program.run_openFin {σ} (P : Program σ) (p : Profile) (evs : List MainEvent) (s : Proc σ)
    (h : P.run p evs = some s) : OpenFin s.net := by
  rw [P.foldl_some p evs _ s h]
  obtain ⟨ns, h1, _⟩ := (PInv.init P.devices P.world).net_run (env := P.env) (p := p)
    (evs.map (MainEvent.proc P.feed)) [] (fun c hc => absurd rfl hc)
  rw [h1]
  exact openFin_run P.env p ns _ (by intro c x hx; simp [Proc.init, Net.init, Sys.init] at hx)

/-- A program's process as the program. -/
theorem main_program {τ} (obj : Endpoint → SetupPacket → τ → HRes × τ) (feed : τ → τ) (d : Device) (t : τ)
    (p : Profile) (evs : List MainEvent) :
    ∃ es : List ProgEvent,
      ((Program.feeding obj feed d t).run p evs = none ∧
        progRun obj feed p (some (Sys.init [d] (freshWorld t))) es = none) ∨
      ∃ s, (Program.feeding obj feed d t).run p evs = some s ∧
        progRun obj feed p (some (Sys.init [d] (freshWorld t))) es = some s.net.sys ∧
        seconds es = ticks evs ∧
        progReplies obj feed p (Sys.init [d] (freshWorld t)) es = replies (Program.feeding obj feed d t) p evs := by
  obtain ⟨es, h⟩ := main_sim obj feed d t p (fun _ => ⟨[], .unexpectedEof⟩) evs (Proc.init [d] (freshWorld t))
    (Sys.init [d] (freshWorld t)) (PInv.init _ _) (foresees_init ..)
  refine ⟨es, ?_⟩
  rcases h with h | ⟨s, t', h1, h2, h3, h4, h5⟩
  · exact .inl h
  · refine .inr ⟨s, h1, ?_, h4, h5⟩
    rw [h2, foresees_all h3 (Program.run_openFin _ p evs s h1)]

/-- The same replies, however what the main loop does is written. -/
theorem progReplies_eq {τ α} (obj : Endpoint → SetupPacket → τ → HRes × τ) (feed : τ → τ) (act : α → τ → τ) (a : α)
    (g : ProgEvent → HostedEvent Unit α) (hf : act a = feed)
    (h1 : ∀ c i, g (.connect c i) = .server (.connect c i)) (h2 : ∀ c w, g (.iterate c w) = .server (.iterate c w))
    (h3 : ∀ c, g (.cancel c) = .server (.cancel c)) (h4 : g .tick = .app a) (p : Profile)
    (es : List ProgEvent) : ∀ t : Sys (Unit × τ),
    (observations (hosting obj 0 noHandlers) act 0 p t (es.map g)).filterMap Prod.snd = progReplies obj feed p t es := by
  induction es with
  | nil => intro t; rfl
  | cons e es ih =>
    intro t
    have hev : (g e).event act = e.hosted.event (fun _ => feed) := by
      cases e with
      | connect c i => rw [h1]; rfl
      | iterate c w => rw [h2]; rfl
      | cancel c => rw [h3]; rfl
      | tick => rw [h4, ← hf]; rfl
    unfold progReplies at ih ⊢
    rw [List.map_cons, List.map_cons, observations, observations, List.filterMap_append, List.filterMap_append, ih, hev]
    congr 1
    cases e with
    | connect c i => rw [h1]; rfl
    | cancel c => rw [h3]; rfl
    | tick => rw [h4]; rfl
    | iterate c w =>
      rw [h2] at hev ⊢
      simp only [observe, ProgEvent.hosted, hev]
      cases job p t c with
      | none => rfl
      | some j =>
        dsimp only
        cases j.urb 0 t.shared.world with
        | none => rfl
        | some r => rfl

/-! ## How a program ends -/

theorem sys_connect_shared {σ} (env : Env σ) (p : Profile) (s : Sys σ) (c : Nat) (i : Stream) :
    (s.step env p (.connect c i)).shared = s.shared := by
  simp only [Sys.step]
  split <;> rfl

/-- Only iterations that have a complete packet, and the main loop, touch the server. -/
theorem main_shared {σ} (env : Env σ) (p : Profile) (feed : σ → σ) (s : Proc σ) (e : MainEvent) :
    (s.step env p (e.proc feed)).net.sys.shared = (match e with
      | .iterate c w => if s.net.ready p c then (s.net.sys.step env p (.iterate c w)).shared else s.net.sys.shared
      | .tick => (s.net.sys.step env p (.user feed)).shared
      | _ => s.net.sys.shared) := by
  cases e with
  | bind b => simp only [MainEvent.proc, Proc.step]; split <;> rfl
  | dial c => simp only [MainEvent.proc, Proc.step]; split <;> rfl
  | acceptErr => rfl
  | acceptOk =>
    simp only [MainEvent.proc, Proc.step]
    split
    · split <;> rfl
    · rfl
  | arrive c bs =>
    simp only [MainEvent.proc, Proc.step]
    split
    · rfl
    · simp only [Net.step]; split <;> rfl
    · rfl
  | hangup c er =>
    simp only [MainEvent.proc, Proc.step]
    split
    · rfl
    · simp only [Net.step]; split <;> rfl
    · rfl
  | iterate c w => simp only [MainEvent.proc, Proc.step, Net.step]; split <;> rfl
  | tick => rfl

/-- The same with the program's events. -/
theorem main_shared_prog {τ} (obj : Endpoint → SetupPacket → τ → HRes × τ) (feed : τ → τ) (p : Profile)
    (s : Proc (Unit × τ)) (e : MainEvent) :
    (s.step (hosting obj 0 noHandlers) p (e.proc (fun u => (u.1, feed u.2)))).net.sys.shared = s.net.sys.shared ∨
    ∃ e' : ProgEvent, (e' = .tick ∨ ∃ c w, e = .iterate c w ∧ e' = .iterate c w) ∧
      (s.step (hosting obj 0 noHandlers) p (e.proc (fun u => (u.1, feed u.2)))).net.sys.shared =
        (s.net.sys.step (hosting obj 0 noHandlers) p (e'.hosted.event (fun _ => feed))).shared := by
  rw [main_shared]
  cases e with
  | iterate c w =>
    dsimp only
    split
    · exact .inr ⟨.iterate c w, .inr ⟨c, w, rfl, rfl⟩, rfl⟩
    · exact .inl rfl
  | tick => exact .inr ⟨.tick, .inl rfl, rfl⟩
  | _ => exact .inl rfl

theorem main_poison {τ} (obj : Endpoint → SetupPacket → τ → HRes × τ) (feed : τ → τ) (p : Profile)
    (s : Proc (Unit × τ)) (e : MainEvent) (h0 : s.net.sys.shared.world.ifPoisoned 0 = false)
    (h1 : (s.step (hosting obj 0 noHandlers) p (e.proc (fun u => (u.1, feed u.2)))).net.sys.shared.world.ifPoisoned 0 = true) :
    ∃ c w j ep st, e = .iterate c w ∧ job p s.net.sys c = some j ∧ j.urb 0 s.net.sys.shared.world = some (ep, st) ∧
      (obj ep st s.net.sys.shared.world.user.2).1 = .panic := by
  rcases main_shared_prog obj feed p s e with h | ⟨e', he, h⟩
  · rw [h, h0] at h1; simp at h1
  · rw [h] at h1
    obtain ⟨c, w, j, ep, st, rfl, hj, hu, hp⟩ := prog_poison obj feed p s.net.sys e' h0 h1
    rcases he with he | ⟨c', w', rfl, he⟩
    · simp at he
    · simp only [ProgEvent.iterate.injEq] at he
      obtain ⟨rfl, rfl⟩ := he
      exact ⟨c, w, j, ep, st, rfl, hj, hu, hp⟩

theorem main_poisoned_stays {τ} (obj : Endpoint → SetupPacket → τ → HRes × τ) (feed : τ → τ) (p : Profile)
    (s : Proc (Unit × τ)) (e : MainEvent) (h0 : s.net.sys.shared.world.ifPoisoned 0 = true) :
    (s.step (hosting obj 0 noHandlers) p (e.proc (fun u => (u.1, feed u.2)))).net.sys.shared.world.ifPoisoned 0 = true := by
  rcases main_shared_prog obj feed p s e with h | ⟨e', he, h⟩
  · rw [h, h0]
  · rw [h]; exact prog_poisoned_stays obj feed p s.net.sys e' h0

theorem main_poisoned_run {τ} (obj : Endpoint → SetupPacket → τ → HRes × τ) (feed : τ → τ) (d : Device) (t0 : τ)
    (p : Profile) (es : List MainEvent) : ∀ s : Proc (Unit × τ), s.net.sys.shared.world.ifPoisoned 0 = true →
    (es.foldl ((Program.feeding obj feed d t0).step p) (some s) = none ↔ .tick ∈ es) := by
  induction es with
  | nil => intro s _; simp
  | cons e es ih =>
    intro s h0
    rw [List.foldl_cons, Program.step_some]
    by_cases he : e = .tick
    · subst he
      rw [if_pos (show (Program.feeding obj feed d t0).stops s .tick = true from h0), Program.foldl_none]
      simp
    · rw [if_neg (by cases e <;> simp_all [Program.stops])]
      refine (ih _ (main_poisoned_stays obj feed p s e h0)).trans ?_
      simp only [List.mem_cons]
      constructor
      · exact Or.inr
      · rintro (h | h)
        · exact absurd h.symm he
        · exact h

theorem main_ended_iff {τ} (obj : Endpoint → SetupPacket → τ → HRes × τ) (feed : τ → τ) (d : Device) (t0 : τ)
    (p : Profile) (es : List MainEvent) : ∀ s : Proc (Unit × τ), s.net.sys.shared.world.ifPoisoned 0 = false →
    (es.foldl ((Program.feeding obj feed d t0).step p) (some s) = none ↔
    ∃ es1 c w es2 t j ep st, es = es1 ++ .iterate c w :: es2 ∧ .tick ∈ es2 ∧
      es1.foldl ((Program.feeding obj feed d t0).step p) (some s) = some t ∧ job p t.net.sys c = some j ∧
      j.urb 0 t.net.sys.shared.world = some (ep, st) ∧ (obj ep st t.net.sys.shared.world.user.2).1 = .panic) := by
  intro s h0
  constructor
  · induction es generalizing s with
    | nil => intro h; simp at h
    | cons e es ih =>
      intro h
      have hst : (Program.feeding obj feed d t0).step p (some s) e
          = some (s.step (hosting obj 0 noHandlers) p (e.proc (fun u => (u.1, feed u.2)))) := by
        rw [Program.step_some, if_neg (by cases e <;> simp [Program.stops, Program.feeding, h0])]
        rfl
      rw [List.foldl_cons, hst] at h
      cases h1 : (s.step (hosting obj 0 noHandlers) p
          (e.proc (fun u => (u.1, feed u.2)))).net.sys.shared.world.ifPoisoned 0 with
      | false =>
        obtain ⟨es1, c, w, es2, t, j, ep, st, hes, htick, ht, hrest⟩ := ih _ h1 h
        exact ⟨e :: es1, c, w, es2, t, j, ep, st, by rw [hes]; rfl, htick, by rw [List.foldl_cons, hst]; exact ht, hrest⟩
      | true =>
        obtain ⟨c, w, j, ep, st, rfl, hj, hu, hp⟩ := main_poison obj feed p s e h0 h1
        exact ⟨[], c, w, es, s, j, ep, st, rfl, (main_poisoned_run obj feed d t0 p es _ h1).mp h, rfl, hj, hu, hp⟩
  · rintro ⟨es1, c, w, es2, t, j, ep, st, rfl, htick, ht, hj, hu, hp⟩
    rw [List.foldl_append, ht, List.foldl_cons]
    refine (main_poisoned_run obj feed d t0 p es2 (t.step (hosting obj 0 noHandlers) p (.iterate c w)) ?_).mpr htick
    have hstep := step_observed (α := Unit) obj (fun _ => feed) 0 noHandlers p t.net.sys (ProgEvent.iterate c w).hosted
    have ho : ∃ o, observe (hosting obj 0 noHandlers) (fun (_ : Unit) => feed) 0 p t.net.sys (ProgEvent.iterate c w).hosted
        = some (.urb ep st, o) := by
      simp only [ProgEvent.hosted, observe, hj, hu]
      exact ⟨_, rfl⟩
    obtain ⟨o, ho⟩ := ho
    rw [ho] at hstep
    obtain ⟨r, _, _, _, _, h5⟩ := hstep
    have := main_shared (hosting obj 0 noHandlers) p (fun u => (u.1, feed u.2)) t (.iterate c w)
    simp only [job_ready p t.net c j hj, if_true] at this
    rw [show ProcEvent.iterate c w = (MainEvent.iterate c w).proc (fun u : Unit × τ => (u.1, feed u.2)) from rfl, this]
    exact h5.mpr hp

end Usbip
