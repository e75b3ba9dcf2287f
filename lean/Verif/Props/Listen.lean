import Verif.Lemmas.Listen
import Verif.Lemmas.Whole
import Verif.Props.Network
import Verif.Spec.Samples
/-!
# `server`, the accept loop: C82
-/

namespace Usbip
open Spec Samples

/-- C82: whatever calls of `server` are made, however their `accept`s go, whenever they are dropped: the
`UsbIpServer` and its connections do what they do in an interactive history (C73), in which the
connections' tasks, the application and the handlers do the same things in the same order. -/
theorem C82_history {σ} (env : Env σ) (p : Profile) (devices : List Device) (w : World σ) (es : List (ProcEvent σ)) :
    ∃ ns, ((Proc.init devices w).run env p es).net = (Net.init devices w).run env p ns ∧
      ns.filterMap work = es.filterMap procWork :=
  (PInv.init devices w).net_run es [] (fun c hc => absurd rfl hc)

/-- C82: so whatever is true after all interactive histories is true here. -/
theorem C82_transfer {σ} (env : Env σ) (p : Profile) (devices : List Device) (w : World σ) (P : Net σ → Prop)
    (hP : ∀ ns, P ((Net.init devices w).run env p ns)) (es : List (ProcEvent σ)) :
    P ((Proc.init devices w).run env p es).net := by
  obtain ⟨ns, h, _⟩ := C82_history env p devices w es
  rw [h]; exact hP ns

/-- C82: conversely every interactive history happens with a single call of `server`. -/
theorem C82_realised {σ} (env : Env σ) (p : Profile) (devices : List Device) (w : World σ) (ns : List (NetEvent σ)) :
    ∃ es, ((Proc.init devices w).run env p (.serve 0 true :: es)).net = (Net.init devices w).run env p ns ∧
      es.filterMap procWork = ns.filterMap work ∧ ∀ k b, .serve k b ∉ es := by
  have gen : ∀ (ns : List (NetEvent σ)) (s : Proc σ), PInv s → s.calls 0 = some (.listening []) →
      (∀ c, s.front c = .unknown ∨ s.front c = .accepted) →
      ∃ es, (s.run env p es).net = s.net.run env p ns ∧ es.filterMap procWork = ns.filterMap work ∧
        ∀ k b, .serve k b ∉ es := by
    intro ns
    induction ns with
    | nil => intro s _ _ _; exact ⟨[], rfl, rfl, by simp⟩
    | cons e ns ih =>
      intro s hI hk hf
      have go : ∀ es1 : List (ProcEvent σ), (s.run env p es1).net = s.net.step env p e →
          (s.run env p es1).calls 0 = some (.listening []) →
          (∀ c, (s.run env p es1).front c = .unknown ∨ (s.run env p es1).front c = .accepted) →
          es1.filterMap procWork = (work e).toList → (∀ k b, .serve k b ∉ es1) →
          ∃ es, (s.run env p es).net = s.net.run env p (e :: ns) ∧ es.filterMap procWork = (e :: ns).filterMap work ∧
            ∀ k b, .serve k b ∉ es := by
        intro es1 h1 h2 h3 h4 h5
        obtain ⟨es, g1, g2, g3⟩ := ih _ (hI.run es1) h2 h3
        refine ⟨es1 ++ es, ?_, ?_, ?_⟩
        · rw [proc_append, g1, h1]; rfl
        · rw [List.filterMap_append, h4, g2]
          cases hw : work e <;> simp [hw]
        · intro k b hm
          rcases List.mem_append.mp hm with hm | hm
          · exact h5 k b hm
          · exact g3 k b hm
      cases e with
      | connect c =>
        refine go [.dial 0 c, .acceptOk 0] ?_ ?_ ?_ rfl (by simp)
        all_goals
          show _
          rcases hf c with hc | hc
        · have hn : s.net.sys.conns c = none := Classical.byContradiction fun hn => by
            rw [(hI.conn c).mp hn] at hc; simp at hc
          have e3 : (fun c' => if c' = c then none else s.net.ended c') = s.net.ended := by
            funext d
            by_cases e : d = c <;> simp [e, hI.fresh c hn]
          simp only [Proc.run, List.foldl_cons, List.foldl_nil, Proc.step, hk, hc, List.nil_append, upd_self, Net.step, Sys.step, hn,
            Net.accept, e3, Option.getD_none]
        · have hn : ∃ x, s.net.sys.conns c = some x := Option.ne_none_iff_exists'.mp ((hI.conn c).mpr hc)
          obtain ⟨x, hn⟩ := hn
          simp only [Proc.run, List.foldl_cons, List.foldl_nil, Proc.step, hk, hc, Net.step, Sys.step, hn]
        · simp only [Proc.run, List.foldl_cons, List.foldl_nil, Proc.step, hk, hc, List.nil_append, upd_self]
        · simp only [Proc.run, List.foldl_cons, List.foldl_nil, Proc.step, hk, hc]
        · intro d
          simp only [Proc.run, List.foldl_cons, List.foldl_nil, Proc.step, hk, hc, List.nil_append, upd_self]
          by_cases e : d = c
          · subst e; exact .inr (upd_self _ _ _)
          · rw [upd_ne _ _ e, upd_ne _ _ e]; exact hf d
        · simp only [Proc.run, List.foldl_cons, List.foldl_nil, Proc.step, hk, hc]
          exact hf
      | arrive c bs =>
        rcases hf c with hc | hc
        · have hn : s.net.sys.conns c = none := Classical.byContradiction fun hn => by
            rw [(hI.conn c).mp hn] at hc; simp at hc
          refine go [] ?_ hk hf rfl (by simp)
          simp only [Net.step, hn]; rfl
        · have : s.run env p [.arrive c bs] = { s with net := s.net.step env p (.arrive c bs) } := by
            simp only [Proc.run, List.foldl_cons, List.foldl_nil, Proc.step, hc]
          refine go [.arrive c bs] ?_ ?_ ?_ rfl (by simp) <;> rw [this]
          · exact hk
          · exact hf
      | hangup c er =>
        rcases hf c with hc | hc
        · have hn : s.net.sys.conns c = none := Classical.byContradiction fun hn => by
            rw [(hI.conn c).mp hn] at hc; simp at hc
          refine go [] ?_ hk hf rfl (by simp)
          simp only [Net.step, hn]; rfl
        · have : s.run env p [.hangup c er] = { s with net := s.net.step env p (.hangup c er) } := by
            simp only [Proc.run, List.foldl_cons, List.foldl_nil, Proc.step, hc]
          refine go [.hangup c er] ?_ ?_ ?_ rfl (by simp) <;> rw [this]
          · exact hk
          · exact hf
      | iterate c w => exact go [.iterate c w] rfl hk hf rfl (by simp)
      | cancel c => exact go [.cancel c] rfl hk hf rfl (by simp)
      | addDevice d => exact go [.addDevice d] rfl hk hf rfl (by simp)
      | removeDevice id => exact go [.removeDevice id] rfl hk hf rfl (by simp)
      | user f crash => exact go [.user f crash] rfl hk hf rfl (by simp)
  obtain ⟨es, h1, h2, h3⟩ := gen ns ((Proc.init devices w).step env p (.serve 0 true)) ((PInv.init devices w).step _)
    rfl (fun _ => .inl rfl)
  exact ⟨es, h1, h2, h3⟩

/-- C82: a call of `server` that could bind its address listens until it is dropped or the runtime is shut
down.  No client, no error of `accept`, no panic of a handler or of a connection's task, no other
call of `server`, nothing the application does to the server ends it. -/
theorem C82_open {σ} (env : Env σ) (p : Profile) (devices : List Device) (w : World σ) (es : List (ProcEvent σ))
    (k : Nat) : (∃ q, ((Proc.init devices w).run env p es).calls k = some (.listening q)) ↔ Open k es := by
  rw [open_run]
  constructor
  · rintro (⟨⟨q, hq⟩, _⟩ | ⟨_, h⟩)
    · simp [Proc.init] at hq
    · exact h
  · exact fun h => .inr ⟨rfl, h⟩

/-- C82: as long as a call listens, its clients are accepted in the order in which they connected: at every
moment, those who have been accepted are the first ones, all others are waiting.  (Clients are distinct.) -/
theorem C82_fifo {σ} (env : Env σ) (p : Profile) (devices : List Device) (w : World σ) (k : Nat)
    (pre post : List (ProcEvent σ)) (hp : ∀ b, .serve k b ∉ pre) (h1 : .dropServe k ∉ post) (h2 : .shutdown ∉ post)
    (hn : (dialled (pre ++ .serve k true :: post)).Nodup) :
    let s := (Proc.init devices w).run env p (pre ++ .serve k true :: post)
    ∃ A q, dials k post = A ++ q ∧ s.calls k = some (.listening q) ∧ (∀ c ∈ A, s.front c = .accepted) ∧
      ∀ c ∈ q, ∃ b e, s.front c = .waiting b e := by
  intro s
  have hI := PInv.init devices w
  have hI1 := hI.run (env := env) (p := p) pre
  have hN : ∀ (es : List (ProcEvent σ)) (s : Proc σ), s.calls k = none → (∀ b, .serve k b ∉ es) →
      (s.run env p es).calls k = none := by
    intro es
    induction es with
    | nil => intro s h _; exact h
    | cons e es ih =>
      intro s h hb
      exact ih _ ((calls_back env p s k e).2.mpr ⟨h, fun b e' => hb b (by simp [e'])⟩)
        (fun b hm => hb b (List.mem_cons_of_mem _ hm))
  have hc := hN pre (Proc.init devices w) rfl hp
  have dn : ∀ (a b : List (ProcEvent σ)), dialled (a ++ b) = dialled a ++ dialled b := by
    intro a b
    induction a with
    | nil => rfl
    | cons e a ih => cases e <;> simp [dialled, ih]
  rw [dn] at hn
  have hU : ∀ (es : List (ProcEvent σ)) (s : Proc σ) (c : Nat), PInv s → s.front c = .unknown → c ∉ dialled es →
      (s.run env p es).front c = .unknown := by
    intro es
    induction es with
    | nil => intro s c _ h _; exact h
    | cons e es ih =>
      intro s c hI h hc
      have hm := front_step env p hI c e
      rw [h] at hm
      refine ih _ c (hI.step e) ?_ ?_
      · generalize (s.step env p e).front c = x at hm ⊢
        cases hm with
        | stay => rfl
        | dial k' => exact absurd (List.mem_cons_self ..) hc
      · intro hd
        apply hc
        cases e <;> first | exact hd | exact List.mem_cons_of_mem _ hd
  have hs : s = (((Proc.init devices w).run env p pre).step env p (.serve k true)).run env p post := by
    show Proc.run env p _ _ = _
    rw [proc_append]; rfl
  have hstep : (((Proc.init devices w).run env p pre).step env p (.serve k true)).calls k = some (.listening []) := by
    simp only [Proc.step, hc]; exact upd_self _ _ _
  have hfr : ∀ c ∈ dialled post, (((Proc.init devices w).run env p pre).step env p (.serve k true)).front c = .unknown := by
    intro c hm
    simp only [Proc.step, hc]
    refine hU pre _ c hI rfl fun hp => ?_
    exact (List.nodup_append.mp hn).2.2 c hp c hm rfl
  obtain ⟨A, q, g1, g2, g3⟩ := fifo_run env p k post (hI1.step _) [] hstep h1 h2 (List.nodup_append.mp hn).2.1 hfr
  rw [← hs] at g2 g3
  refine ⟨A, q, by simpa using g1, g2, g3, fun c hm => ?_⟩
  exact (hI.run _).queued k q g2 c hm

/-- C82: what a client sends before it is accepted is not lost: a client that is waiting has said exactly
what arrived since it connected, and when `accept` comes to it, its connection starts with that as its
input; nothing else changes. -/
theorem C82_accept {σ} (env : Env σ) (p : Profile) (devices : List Device) (w : World σ) (es : List (ProcEvent σ))
    (k c : Nat) (q : List Nat)
    (hk : ((Proc.init devices w).run env p es).calls k = some (.listening (c :: q))) :
    let s := (Proc.init devices w).run env p es
    ∃ pre post, es = pre ++ .dial k c :: post ∧ c ∉ dialled pre ∧
      s.net.sys.conns c = none ∧
      (s.step env p (.acceptOk k)).calls k = some (.listening q) ∧
      (s.step env p (.acceptOk k)).net.sys.shared = s.net.sys.shared ∧
      (s.step env p (.acceptOk k)).net.sys.conns c = some (Conn.new ⟨(says c post).1, (says c post).2.getD .unexpectedEof⟩) ∧
      (s.step env p (.acceptOk k)).net.ended c = (says c post).2 ∧
      ∀ d, d ≠ c → (s.step env p (.acceptOk k)).net.sys.conns d = s.net.sys.conns d ∧
        (s.step env p (.acceptOk k)).net.ended d = s.net.ended d := by
  intro s
  have hI : PInv s := (PInv.init devices w).run es
  obtain ⟨b, e, hw⟩ := hI.queued k _ hk c (by simp)
  obtain ⟨pre, k', post, hes, hd, hsay⟩ := says_unknown env p es (PInv.init devices w) c b e rfl hw
  have ek := listen_queue_from env p es (PInv.init devices w) c k k' rfl pre post hes hd _ hk (by simp)
  rw [ek] at hes
  have hn : s.net.sys.conns c = none := Classical.byContradiction fun hn => by
    rw [(hI.conn c).mp hn] at hw; simp at hw
  have hk' : s.calls k = some (.listening (c :: q)) := hk
  refine ⟨pre, post, hes, hd, hn, ?_⟩
  rw [← hsay]
  simp only [Proc.step, hk', hw, Net.accept]
  refine ⟨upd_self _ _ _, trivial, ?_, ?_, fun d hd => ⟨?_, ?_⟩⟩
  · simp [setConn]
  · simp
  · simp [setConn, hd]
  · simp [hd]

/-- C82: an error of `accept` changes nothing; a failed `bind` panics in the caller and changes nothing else. -/
theorem C82_errors {σ} (env : Env σ) (p : Profile) (s : Proc σ) (k : Nat) :
    s.step env p (.acceptErr k) = s ∧
    (s.step env p (.serve k false)).net = s.net ∧ (s.step env p (.serve k false)).front = s.front ∧
    (s.calls k = none → (s.step env p (.serve k false)).calls k = some .panicked) ∧
    ∀ k', k' ≠ k → (s.step env p (.serve k false)).calls k' = s.calls k' := by
  refine ⟨rfl, ?_⟩
  simp only [Proc.step]
  cases hk : s.calls k with
  | none => exact ⟨rfl, rfl, fun _ => upd_self _ _ _, fun k' h => upd_ne _ _ h⟩
  | some a => exact ⟨rfl, rfl, fun h => by simp at h, fun _ _ => rfl⟩

/-- C82: dropping a call of `server` does nothing to the server and its connections, then or later: whatever happens
afterwards (other than that call accepting somebody), they do the same as if it had not been dropped. -/
theorem C82_drop {σ} (env : Env σ) (p : Profile) (devices : List Device) (w : World σ) (es es' : List (ProcEvent σ))
    (k : Nat) (he : .acceptOk k ∉ es') :
    ((Proc.init devices w).run env p (es ++ .dropServe k :: es')).net =
      ((Proc.init devices w).run env p (es ++ es')).net := by
  rw [proc_append, proc_append]
  have hI : PInv ((Proc.init devices w).run env p es) := (PInv.init devices w).run es
  generalize (Proc.init devices w).run env p es = s at hI
  show ((s.step env p (.dropServe k)).run env p es').net = _
  by_cases hk : ∃ q, s.calls k = some (.listening q)
  · obtain ⟨q, hk⟩ := hk
    exact ((But.drop env p hI q hk).run es' hI he).net.symm
  · have : s.step env p (.dropServe k) = s := by
      simp only [Proc.step]
      split
      · rename_i q hq; exact absurd ⟨q, hq⟩ hk
      · rfl
    rw [this]

/-- C82: shutting the runtime down ends every call of `server` and the task of every connection; the tables stay as
they are, so that what was imported stays imported. -/
theorem C82_shutdown {σ} (env : Env σ) (p : Profile) (s : Proc σ) :
    (∀ k q, (s.step env p .shutdown).calls k ≠ some (.listening q)) ∧
    (∀ c x, (s.step env p .shutdown).net.sys.conns c = some x → x.status ≠ .running) ∧
    (∀ c b e, (s.step env p .shutdown).front c ≠ .waiting b e) ∧
    (s.step env p .shutdown).net.sys.shared = s.net.sys.shared := by
  refine ⟨fun k q h => ?_, fun c x h hr => ?_, fun c b e h => ?_, rfl⟩
  · simp only [Proc.step] at h
    cases hk : s.calls k with
    | none => rw [hk] at h; simp at h
    | some a => rw [hk] at h; cases a <;> simp at h
  · simp only [Proc.step, Option.map_eq_some_iff] at h
    obtain ⟨y, _, rfl⟩ := h
    unfold Conn.drop at hr
    split at hr
    · simp at hr
    · rename_i h; exact h hr
  · simp only [Proc.step] at h
    cases hf : s.front c <;> rw [hf] at h <;> simp at h

/-- C82: `accept` needs no lock and no handler: in every state of the whole server, whoever holds locks, whoever is in
handler code, whatever reply is stuck, a new connection can be accepted. -/
theorem C82_accepting {τ} (code : Code τ) (env : Env (HandlerId → τ)) (p : Profile) (s : Whole code) (c : Nat)
    (hc : s.fine.cfg.conns c = none) :
    ∃ s' : Whole code, Whole.Step code env p s (some (.server (.outside (.connect c ⟨[], .unexpectedEof⟩)))) s' ∧
      s'.fine.cfg.conns c = some (Conn.new ⟨[], .unexpectedEof⟩) ∧ s'.fine.cfg.shared = s.fine.cfg.shared ∧
      s'.fine.cfg.flights = s.fine.cfg.flights ∧ s'.fine.cfg.queue = s.fine.cfg.queue ∧ s'.fine.inside = s.fine.inside := by
  refine ⟨_, .socket s _ _ (.connect s.tcp c hc) (fun l e ho => ?_) (fun l t e hp => ?_), ?_, rfl, rfl, rfl, rfl⟩
  · simp only [TcpLabel.server.injEq] at e
    subst e; exact ho
  · simp only [TcpLabel.server.injEq] at e
    subst e; simp [prog] at hp
  · simp [Whole.tcp, setConn]

/-! ### A concrete case

Two calls of `server`, the first cannot bind its address.  Two clients; the first asks for the device list before it is
accepted.  Then the call is dropped: the accepted client is served, the other is refused. -/

namespace Samples

def listening : List (ProcEvent Nat) :=
  [.serve 0 false, .serve 1 true, .dial 0 7, .dial 1 3, .arrive 3 [1, 17, 128, 5, 0], .dial 1 4, .acceptErr 1,
   .arrive 3 [0, 0, 0], .acceptOk 1]

end Samples

example : Open 1 listening ∧ ¬ Open 0 listening := by
  constructor
  · exact ⟨[.serve 0 false], _, rfl, by simp, by simp, by simp⟩
  · rintro ⟨pre, post, h, h1, _⟩
    cases pre with
    | nil => simp [listening] at h
    | cons a pre =>
      simp only [listening, List.cons_append, List.cons.injEq] at h
      obtain ⟨rfl, _⟩ := h
      exact h1 false (by simp)

example : let s := (Proc.init [devA, devB] world).run env dev listening
    s.calls 1 = some (.listening [4]) ∧ s.calls 0 = some .panicked ∧ s.front 3 = .accepted ∧ s.front 4 = .waiting [] none ∧
    s.front 7 = .refused ∧ (s.net.sys.conns 3).map (·.input.bytes) = some [1, 17, 128, 5, 0, 0, 0, 0] := by
  decide +kernel

example : let s := (Proc.init [devA, devB] world).run env dev (listening ++ [.dropServe 1, .iterate 3 .full])
    s.front 4 = .refused ∧ (s.net.sys.conns 3).map (fun x => (x.status, x.output.length)) = some (.running, 12 + 2 * (312 + 4)) := by
  decide +kernel

/-- The hypotheses of `C82_fifo`, `C82_accept`, `C82_drop` are met. -/
example : (dialled listening).Nodup ∧ dials 1 listening = [3, 4] ∧
    ((Proc.init [devA, devB] world).run env dev listening.dropLast).calls 1 = some (.listening [3, 4]) ∧
    says 3 (listening.drop 4) = ([1, 17, 128, 5, 0, 0, 0, 0], none) := by
  decide +kernel

end Usbip
