import Verif.Lemmas.WholeLive
import Verif.Props.Live
import Verif.Props.Whole
/-!
# What arrives is answered, with handler code that runs step by step (C84)
-/

namespace Usbip
open Spec Samples

/-! ## C84 -/

section
variable {τ : Type} (code : Code τ) (env : Env (HandlerId → τ)) (p : Profile) (devices : List Device)
  (w : World (HandlerId → τ))

/-- C84: in a fair execution of the whole server (tasks, locks, sockets, handler code step by step behind
mutexes, threads of the application using handlers) in which handler code always returns and no `remove_device`
call waits for the imported devices (see `C62_needed`), a request that has arrived in full at a running connection
is answered, and the client gets the answer in full; unless the task panics on it, the task is dropped or
writing to the socket fails. -/
theorem C84_answered (hbeh : Behaves code env) (hret : Returns code)
    (e : WholeExec code env p (Whole.init code devices w)) (hfair : e.Fair)
    (hno : ∀ n t f i m k, (e.state n).fine.cfg.flights t = some f → f.ev = .removeDevice i → f.code ≠ .lock .used m k)
    (n c : Nat) (x : Conn) (hx : (e.state n).fine.cfg.conns c = some x) (hr : x.status = .running)
    (cmd : Cmd) (packet rest : Bytes) (hw : WellFormed p.debugAssertions cmd) (hp : PacketFor cmd packet)
    (hb : x.input.bytes ++ (e.state n).buf c = packet ++ rest) :
    ∃ m y, n < m ∧ (e.state m).fine.cfg.conns c = some y ∧ (e.state m).fine.cfg.idle c ∧ (e.state m).got c = y.output ∧
      ((∃ resp more, AnswersNext p x y cmd resp ∧ y.input.bytes ++ (e.state m).buf c = rest ++ more) ∨
        y.status = .panicked ∨ e.Faulted c m y) := by
  obtain ⟨e', B⟩ := exists_behind hbeh e
  obtain ⟨m, y, h1, h2, h3, h4, h5⟩ := C83_answered env p devices w e' (B.fair hret hfair) (B.no_waits hno) n c x
    (B.conns_eq n c ▸ hx) hr cmd packet rest hw hp (by rw [B.buf_eq]; exact hb)
  refine ⟨m, y, h1, B.conns_eq m c ▸ h2, B.idle_iff.1 h3, B.got_eq m ▸ h4, ?_⟩
  rw [B.buf_eq] at h5
  exact h5.imp id (Or.imp id B.faulted)

/-- C84: any number of requests that have arrived at a running connection are answered, in their order,
one response each, and the client gets all of them. -/
theorem C84_all (hbeh : Behaves code env) (hret : Returns code)
    (e : WholeExec code env p (Whole.init code devices w)) (hfair : e.Fair)
    (hno : ∀ n t f i m k, (e.state n).fine.cfg.flights t = some f → f.ev = .removeDevice i → f.code ≠ .lock .used m k)
    (n c : Nat) (x : Conn) (hx : (e.state n).fine.cfg.conns c = some x) (hr : x.status = .running)
    (qs : List (Cmd × Bytes)) (hne : qs ≠ []) (hq : Requests p qs) (rest : Bytes)
    (hb : x.input.bytes ++ (e.state n).buf c = (qs.map (·.2)).flatten ++ rest) :
    ∃ m y, n < m ∧ (e.state m).fine.cfg.conns c = some y ∧ (e.state m).fine.cfg.idle c ∧ (e.state m).got c = y.output ∧
      ((AnswersAll p x y (qs.map (·.1)) ∧ y.status = .running) ∨ y.status = .panicked ∨ e.Faulted c m y) := by
  obtain ⟨e', B⟩ := exists_behind hbeh e
  obtain ⟨m, y, h1, h2, h3, h4, h5⟩ := C83_all env p devices w e' (B.fair hret hfair) (B.no_waits hno) n c x
    (B.conns_eq n c ▸ hx) hr qs hne hq rest (by rw [B.buf_eq]; exact hb)
  exact ⟨m, y, h1, B.conns_eq m c ▸ h2, B.idle_iff.1 h3, B.got_eq m ▸ h4, h5.imp id (Or.imp id B.faulted)⟩

/-- C84: when a client has hung up, or has sent something that is no request (`hin`: what has arrived is
enough for the server to see it), then all the requests before are answered, and the connection ends: its
device is given back, if it has one (or its task panics, or is dropped). -/
theorem C84_over (hbeh : Behaves code env) (hret : Returns code)
    (e : WholeExec code env p (Whole.init code devices w)) (hfair : e.Fair)
    (hno : ∀ n t f i m k, (e.state n).fine.cfg.flights t = some f → f.ev = .removeDevice i → f.code ≠ .lock .used m k)
    (n c : Nat) (x : Conn) (hx : (e.state n).fine.cfg.conns c = some x) (hr : x.status = .running)
    (qs : List (Cmd × Bytes)) (hq : Requests p qs) (rest : Bytes) (hrest : NoRequest p rest)
    (hb : x.input.bytes ++ (e.state n).buf c = (qs.map (·.2)).flatten ++ rest)
    (hin : (readCommand p : Rd Arrived Cmd) ⟨rest⟩ ≠ .diverge ∨ (e.state n).ended c ≠ none) :
    ∃ m y, n < m ∧ (e.state m).fine.cfg.conns c = some y ∧ (e.state m).fine.cfg.idle c ∧ (e.state m).got c = y.output ∧
      ((AnswersAll p x y (qs.map (·.1)) ∧ Over y) ∨ y.status = .panicked ∨ e.Faulted c m y) := by
  obtain ⟨e', B⟩ := exists_behind hbeh e
  obtain ⟨m, y, h1, h2, h3, h4, h5⟩ := C83_over env p devices w e' (B.fair hret hfair) (B.no_waits hno) n c x
    (B.conns_eq n c ▸ hx) hr qs hq rest hrest (by rw [B.buf_eq]; exact hb) (by rw [B.ended_eq]; exact hin)
  exact ⟨m, y, h1, B.conns_eq m c ▸ h2, B.idle_iff.1 h3, B.got_eq m ▸ h4, h5.imp id (Or.imp id B.faulted)⟩

/-- C84: when a client has hung up, its connection comes to an end, whatever the client has sent, and is over
for good. -/
theorem C84_hangup (hbeh : Behaves code env) (hret : Returns code)
    (e : WholeExec code env p (Whole.init code devices w)) (hfair : e.Fair)
    (hno : ∀ n t f i m k, (e.state n).fine.cfg.flights t = some f → f.ev = .removeDevice i → f.code ≠ .lock .used m k)
    (n c : Nat) (x : Conn) (hx : (e.state n).fine.cfg.conns c = some x) (hend : (e.state n).ended c ≠ none)
    (hr : x.status = .running) :
    ∃ m y, n < m ∧ (e.state m).fine.cfg.conns c = some y ∧ (Over y ∨ e.Faulted c m y) ∧
      ∀ m', m ≤ m' → (e.state m').fine.cfg.idle c ∧ (e.state m').got c = y.output ∧
        ∃ z, (e.state m').fine.cfg.conns c = some z ∧ z.status = y.status ∧ z.current = y.current ∧ z.served = y.served := by
  obtain ⟨e', B⟩ := exists_behind hbeh e
  obtain ⟨m, y, h1, h2, h3, h4⟩ := C83_hangup env p devices w e' (B.fair hret hfair) (B.no_waits hno) n c x
    (B.conns_eq n c ▸ hx) (by rw [B.ended_eq]; exact hend) hr
  refine ⟨m, y, h1, B.conns_eq m c ▸ h2, h3.imp id B.faulted, fun m' hm' => ?_⟩
  obtain ⟨h5, h6, z, h7, h8⟩ := h4 m' hm'
  exact ⟨B.idle_iff.1 h5, B.got_eq m' ▸ h6, z, B.conns_eq m' c ▸ h7, h8⟩

/-- C84: every call of `add_device` and `remove_device` that was started returns, and every command that is
being worked on is done with, unless it is dropped. -/
theorem C84_completes (hbeh : Behaves code env) (hret : Returns code)
    (e : WholeExec code env p (Whole.init code devices w)) (hfair : e.Fair)
    (hno : ∀ n t f i m k, (e.state n).fine.cfg.flights t = some f → f.ev = .removeDevice i → f.code ≠ .lock .used m k)
    (t n : Nat) (ev : Event (HandlerId → τ)) (hs : e.label n = some (.server (.start t ev))) :
    ∃ m, n < m ∧ (e.label m = some (.server (.ended t)) ∨ ∃ o, e.label m = some (.server (.dropped t o))) := by
  obtain ⟨e', B⟩ := exists_behind hbeh e
  obtain ⟨m, h1, h2⟩ := C83_completes env p devices w e' (B.fair hret hfair) (B.no_waits hno) t n ev (by
    rw [B.label, hs]; rfl)
  refine ⟨m, h1, ?_⟩
  rw [B.label] at h2
  cases hl : e.label m with
  | none => rw [hl] at h2; simp at h2
  | some lb => rw [hl] at h2; simpa using h2

/-- C84: nobody waits for ever for a handler: whoever holds its mutex (a command or the application), it is free
again later. -/
theorem C84_frees (hbeh : Behaves code env) (hret : Returns code)
    (e : WholeExec code env p (Whole.init code devices w)) (hfair : e.Fair) (o : HandlerId) (n : Nat) :
    ∃ m, n ≤ m ∧ (e.state m).fine.free o := by
  obtain ⟨e', B⟩ := exists_behind hbeh e
  exact B.frees hret hfair o n

/-- C84: that handler code returns is needed, in every execution, fair or not: if a command of connection `c` is
inside handler code that never returns, then nothing is ever sent to `c` any more, nothing more is read from it, its
task cannot be dropped, and no device is imported or given back by anybody. -/
theorem C84_stuck (hbeh : Behaves code env) (e : WholeExec code env p (Whole.init code devices w))
    (n t c : Nat) (i : Inside code) (f : Flight (HandlerId → τ)) (x : Conn)
    (hi : (e.state n).fine.inside t = some i)
    (hf : (e.state n).fine.cfg.flights t = some f) (ho : f.owner = some c) (hx : (e.state n).fine.cfg.conns c = some x)
    (hnever : ∀ l v, Goes code (code.start i.call) i.entry l v → code.result l = none) :
    ∀ m, n ≤ m → (e.state m).fine.inside t ≠ none ∧ (e.state m).fine.cfg.conns c = some x ∧
      (e.state m).got c = (e.state n).got c ∧
      (e.state m).fine.cfg.shared.used = (e.state n).fine.cfg.shared.used := by
  obtain ⟨e', B⟩ := exists_behind hbeh e
  have H : ∀ d, (∃ j, (e.state (n + d)).fine.inside t = some j ∧ j.call = i.call ∧ j.entry = i.entry) ∧
      (e.state (n + d)).fine.cfg.flights t = some f ∧ (e.state (n + d)).fine.cfg.conns c = some x ∧
      (e.state (n + d)).got c = (e.state n).got c ∧
      (e.state (n + d)).fine.cfg.shared.used = (e.state n).fine.cfg.shared.used := by
    intro d
    induction d with
    | zero => exact ⟨⟨i, hi, rfl, rfl⟩, hf, hx, rfl, rfl⟩
    | succ d ih =>
      obtain ⟨⟨j, hj, hc, he⟩, h2, h3, h4, h5⟩ := ih
      obtain ⟨f', g, k, hf', hk, _, hh⟩ := (B.inv (n + d)).call t j hj
      rw [h2] at hf'; cases hf'
      have hg := (B.inv (n + d)).goes t j hj
      rw [hc, he] at hg
      have hres := hnever _ _ hg
      rcases inside_step (B.inv _) (B.covered _) (e.step (n + d)) hj with ⟨_, ev, _, r, hr⟩ | ⟨hl, h⟩
      · rw [hres] at hr; cases hr
      · have hl' : ∀ l, e'.label (n + d) = .server l → prog l ≠ some t := by
          intro l hlab
          rw [B.label] at hlab
          cases hle : e.label (n + d) with
          | none => rw [hle] at hlab; cases hlab; simp [prog]
          | some lb => rw [hle] at hlab; exact hl l (by rw [hle]; exact congrArg some hlab)
        have st := e'.step (n + d)
        have tame := tcp_tame (e'.reach (n + d))
        have f2 : (e'.state (n + d)).cfg.flights t = some f := by rw [(B.cfg _).1]; exact h2
        obtain ⟨k1, k2, k3⟩ := tcp_inside_keeps tame st hl' f2 hh ho hk
        refine ⟨?_, ?_, ?_, ?_, ?_⟩
        · rcases h with ⟨h, _⟩ | ⟨_, h, _⟩
          · exact ⟨j, h, hc, he⟩
          · exact ⟨_, h, hc, he⟩
        · rw [← Nat.add_assoc, ← (B.cfg _).1]
          exact (tcp_flights_other st hl').trans f2
        · rw [← Nat.add_assoc, ← B.conns_eq, k1, B.conns_eq]; exact h3
        · rw [← Nat.add_assoc, ← B.got_eq, k2, B.got_eq]; exact h4
        · rw [← Nat.add_assoc, ← (B.cfg _).2.2.2.1, k3, (B.cfg _).2.2.2.1]; exact h5
  intro m hm
  obtain ⟨d, rfl⟩ := Nat.exists_eq_add_of_le hm
  obtain ⟨⟨j, hj, _⟩, _, h3, h4, h5⟩ := H d
  exact ⟨by rw [hj]; simp, h3, h4, h5⟩

end

/-! ## A concrete execution -/

namespace Samples

/-- A submit for an interrupt endpoint, answered by the interface's handler. -/
def askHandler : Cmd := .submit hdrIn 0 64 0 0 0 [0, 0, 0, 0, 0, 0, 0, 0] [] []

/-- A client has connected, has sent an import and a submit at once, and has hung up. -/
def importSubmitOut : Whole adder where
  fine := { cfg := { Cfg.init [devA] adderWorld with conns := setConn (fun _ => none) 0 (Conn.new ⟨[], .unexpectedEof⟩) }
            inside := fun _ => none
            app := fun _ => none }
  buf := upd (fun _ => []) 0 (wireCmd (.reqImport 0 busA) ++ wireCmd askHandler)
  ended := upd (fun _ => none) 0 (some .unexpectedEof)
  got := fun _ => []

end Samples

theorem importSubmitOut_reach : Whole.Reach adder adderEnv dev (Whole.init adder [devA] adderWorld)
    [.server (.outside (.connect 0 ⟨[], .unexpectedEof⟩)),
      .arrive 0 (wireCmd (.reqImport 0 busA) ++ wireCmd askHandler), .hangup 0 .unexpectedEof] importSubmitOut := by
  have r1 := Tcp.Reach.tail .refl (.connect (env := adderEnv) (p := dev) (Tcp.init [devA] adderWorld) 0 rfl)
  have r2 := Tcp.Reach.tail r1 (.arrive _ 0 (wireCmd (.reqImport 0 busA) ++ wireCmd askHandler) (by simp [setConn]) rfl)
  have r3 := Tcp.Reach.tail r2 (.hangup _ 0 .unexpectedEof (by simp [setConn]) rfl)
  exact lift_tcp (code := adder) (Whole.init adder [devA] adderWorld) r3 (by
    intro l hm
    simp only [List.nil_append, List.cons_append, List.mem_cons, List.not_mem_nil, or_false, reduceCtorEq,
      TcpLabel.server.injEq] at hm
    subst hm
    exact ⟨id, fun t h => by cases h⟩)

/-- The hypotheses of C84 are met: a client sends an import and a submit at once and hangs up. -/
theorem submitted : ∃ (e : WholeExec adder adderEnv dev (Whole.init adder [devA] adderWorld)) (n0 : Nat), e.Fair ∧
    (∀ n t f i m k, (e.state n).fine.cfg.flights t = some f → f.ev = .removeDevice i → f.code ≠ .lock .used m k) ∧
    e.state n0 = importSubmitOut ∧ (∀ k c i, n0 ≤ k → e.label k ≠ some (.server (.outside (.connect c i)))) ∧
    ∃ n y, n0 < n ∧ (e.state n).fine.cfg.conns 0 = some y ∧ y.served.map (·.1) = [.reqImport 0 busA, askHandler] ∧
      y.status = .closed ∧ y.current = none ∧ (e.state n).fine.cfg.shared.world.user (.iface 0) = 2 := by
  have R3 := importSubmitOut_reach
  obtain ⟨ls3, r3⟩ : ∃ ls3, Tcp.Reach adderEnv dev (Tcp.init [devA] adderWorld) ls3 importSubmitOut.tcp := by
    obtain ⟨_, w', hA, hr⟩ := whole_reach adder_behaves R3
    have hfree : ∀ o, importSubmitOut.fine.free o := fun o => ⟨fun t i h => (by cases h), fun a e h => (by cases h)⟩
    have : w' = importSubmitOut.fine.cfg.shared.world := by
      rcases w' with ⟨u, a, b⟩
      have h1 := hA.ifp
      have h2 := hA.devp
      have h3 : u = importSubmitOut.fine.cfg.shared.world.user := funext fun o => hA.free o (hfree o)
      dsimp only at h1 h2
      rw [h1, h2, h3]
    subst this
    exact ⟨_, hr⟩
  obtain ⟨l4, s4, r4, q4, e4, n4, u4⟩ := calm_next_user r3 ⟨_, _, rfl⟩ (.iterate 0 .full)
  obtain ⟨l5, s5, r5, q5, e5, n5, u5⟩ := calm_next_user (r3.trans r4) q4 (.iterate 0 .full)
  obtain ⟨l6, s6, r6, q6, e6, n6, u6⟩ := calm_next_user ((r3.trans r4).trans r5) q5 (.iterate 0 .full)
  rw [e5, e4] at e6
  have hn : (((((restOf importSubmitOut.tcp).step adderEnv dev (.iterate 0 .full)).step adderEnv dev (.iterate 0 .full)).step
        adderEnv dev (.iterate 0 .full)).sys.conns 0).map (fun x => (x.served.map (·.1), x.current, x.status, x.input.bytes))
        = some ([Cmd.reqImport 0 busA, askHandler], none, .closed, []) := by
    decide +kernel
  have hu : ((((restOf importSubmitOut.tcp).step adderEnv dev (.iterate 0 .full)).step adderEnv dev (.iterate 0 .full)).step
        adderEnv dev (.iterate 0 .full)).sys.shared.world.user (.iface 0) = 2 := by
    decide +kernel
  rw [← e6] at hn hu
  obtain ⟨y, hy, hy1, hy2, hy3, hy4⟩ : ∃ y, s6.cfg.conns 0 = some y ∧ y.served.map (·.1) = [.reqImport 0 busA, askHandler] ∧
      y.current = none ∧ y.status = .closed ∧ y.input.bytes ++ s6.buf 0 = [] := by
    cases hc : s6.cfg.conns 0 with
    | none => simp [restOf, hc] at hn
    | some y =>
      simp only [restOf, hc, Option.map_some, Option.some.injEq, Prod.mk.injEq] at hn
      exact ⟨y, rfl, hn.1, hn.2.1, hn.2.2.1, hn.2.2.2⟩
  have hother : ∀ c, c ≠ 0 → s6.cfg.conns c = none := by
    intro c hc
    have : (restOf s6).sys.conns c = none := by
      rw [e6, net_iterate_other hc, net_iterate_other hc, net_iterate_other hc]
      simp [restOf, importSubmitOut, Whole.tcp, setConn, hc]
    cases h : s6.cfg.conns c with
    | none => rfl
    | some x => simp [restOf, h] at this
  have hfl6 : ∀ t, s6.cfg.flights t = none := by
    obtain ⟨sh, conns, h⟩ := q6
    intro t; rw [h]; rfl
  have rall := (r4.trans r5).trans r6
  obtain ⟨S, R6, hS, hin, hap⟩ := lift_from (code := adder) adder_behaves adder_returns r3 (fun _ => rfl) (fun _ => rfl) rall
    (fun f cr hf => by
      simp only [List.mem_append] at hf
      rcases hf with (hf | hf) | hf
      · cases u4 f cr hf
      · cases u5 f cr hf
      · cases u6 f cr hf)
  subst hS
  obtain ⟨N1, e1, hs1, hl1, hp1⟩ := WholeExec.after R6 (.rest adder adderEnv dev S)
  obtain ⟨N0, e, hs0, hl0, hp0⟩ := WholeExec.after R3 e1
  have late : ∀ m, N0 + N1 ≤ m → e.state m = S := by
    intro m hm
    obtain ⟨i, rfl⟩ := Nat.exists_eq_add_of_le hm
    rw [Nat.add_assoc, hs0, hs1]; rfl
  have hst : e.state N0 = importSubmitOut := by
    have := hs0 0
    rw [Nat.add_zero] at this
    rw [this]; exact e1.init
  refine ⟨e, N0, ?_, ?_, hst, fun k c i hk hl => ?_, N0 + N1 + 1, y, by omega, ?_, hy1, hy3, hy2, ?_⟩
  · refine e.rest_fair _ late hfl6 hin hap (fun c x hx => ?_) (fun c x hx => ?_)
    · by_cases h : c = 0
      · subst h; exact (List.append_eq_nil_iff.1 hy4).2
      · have := hother c h
        rw [show S.tcp.cfg.conns c = S.fine.cfg.conns c from rfl, hx] at this; cases this
    · by_cases h : c = 0
      · subst h
        have : some x = some y := hx.symm.trans hy
        cases this
        rw [hy3]; simp
      · have := hother c h
        rw [show S.tcp.cfg.conns c = S.fine.cfg.conns c from rfl, hx] at this; cases this
  · obtain ⟨e', B⟩ := exists_behind adder_behaves e
    refine B.no_removals (fun n t i h => ?_)
    by_cases h0 : n < N0
    · have := hp0 n h0 _ h
      simp at this
    · obtain ⟨k, rfl⟩ := Nat.exists_eq_add_of_le (Nat.not_lt.1 h0)
      rw [hl0] at h
      by_cases h1 : k < N1
      · have hm := hp1 k h1 _ h
        simp only [List.mem_append] at hm
        have : live (Event.removeDevice i : Event (HandlerId → Nat)) = .iterate 0 .full := by
          rcases hm with (hm | hm) | hm
          · exact n4 _ _ hm
          · exact n5 _ _ hm
          · exact n6 _ _ hm
        simp [live] at this
      · obtain ⟨j, rfl⟩ := Nat.exists_eq_add_of_le (Nat.not_lt.1 h1)
        rw [hl1] at h
        simp [WholeExec.rest] at h
  · obtain ⟨e', B⟩ := exists_behind adder_behaves e
    obtain ⟨h1, h2⟩ := B.connects hl
    have hc : c ≠ 0 := by
      rintro rfl
      exact B.stays (n := N0) (by rw [hst]; simp [importSubmitOut, setConn]) k hk h1
    have := B.stays h2 (max (k + 1) (N0 + N1)) (by omega)
    rw [late _ (by omega)] at this
    exact this (hother c hc)
  · rw [late _ (by omega)]; exact hy
  · rw [late _ (by omega)]; exact hu

/-- The two requests of `submitted`, as C84 wants them. -/
theorem import_submit : Requests dev [(.reqImport 0 busA, wireCmd (.reqImport 0 busA)), (askHandler, wireCmd askHandler)] := by
  intro q hq
  simp only [List.mem_cons, List.not_mem_nil, or_false] at hq
  rcases hq with rfl | rfl
  · have hw : WellFormed dev.debugAssertions (.reqImport 0 busA) := by decide +kernel
    exact ⟨hw, packetFor_wire _ hw⟩
  · have hw : WellFormed dev.debugAssertions askHandler := by decide +kernel
    exact ⟨hw, packetFor_wire _ hw⟩

/-- C84 on `submitted`: all hypotheses are met, with the first request, with both of them, with the end of the
input, and with the handler. -/
example : ∃ (e : WholeExec adder adderEnv dev (Whole.init adder [devA] adderWorld)) (n0 : Nat), e.state n0 = importSubmitOut ∧
    (∃ m y, n0 < m ∧ (e.state m).fine.cfg.conns 0 = some y ∧ (e.state m).fine.cfg.idle 0 ∧ (e.state m).got 0 = y.output ∧
      ((∃ resp more, AnswersNext dev (Conn.new ⟨[], .unexpectedEof⟩) y (.reqImport 0 busA) resp ∧
        y.input.bytes ++ (e.state m).buf 0 = wireCmd askHandler ++ more) ∨
        y.status = .panicked ∨ e.Faulted 0 m y)) ∧
    (∃ m y, n0 < m ∧ (e.state m).fine.cfg.conns 0 = some y ∧ (e.state m).fine.cfg.idle 0 ∧ (e.state m).got 0 = y.output ∧
      ((AnswersAll dev (Conn.new ⟨[], .unexpectedEof⟩) y [.reqImport 0 busA, askHandler] ∧ y.status = .running) ∨
        y.status = .panicked ∨ e.Faulted 0 m y)) ∧
    (∃ m y, n0 < m ∧ (e.state m).fine.cfg.conns 0 = some y ∧ (e.state m).fine.cfg.idle 0 ∧ (e.state m).got 0 = y.output ∧
      ((AnswersAll dev (Conn.new ⟨[], .unexpectedEof⟩) y [.reqImport 0 busA, askHandler] ∧ Over y) ∨
        y.status = .panicked ∨ e.Faulted 0 m y)) ∧
    (∃ m y, n0 < m ∧ (e.state m).fine.cfg.conns 0 = some y ∧ (Over y ∨ e.Faulted 0 m y)) ∧
    ∃ m, n0 ≤ m ∧ (e.state m).fine.free (.iface 0) := by
  obtain ⟨e, n0, hfair, hno, h3, _⟩ := submitted
  have hx : (e.state n0).fine.cfg.conns 0 = some (Conn.new ⟨[], .unexpectedEof⟩) := by rw [h3]; rfl
  have hb : (e.state n0).buf 0 = wireCmd (.reqImport 0 busA) ++ wireCmd askHandler := by rw [h3]; rfl
  have hend : (e.state n0).ended 0 ≠ none := by rw [h3]; simp [importSubmitOut, upd_self]
  have hq := import_submit
  refine ⟨e, n0, h3, ?_, ?_, ?_, ?_, C84_frees _ _ _ _ _ adder_behaves adder_returns e hfair _ _⟩
  · exact C84_answered _ _ _ _ _ adder_behaves adder_returns e hfair hno n0 0 _ hx rfl (.reqImport 0 busA) _ _
      (hq _ (List.mem_cons_self ..)).1 (hq _ (List.mem_cons_self ..)).2 (by rw [hb]; rfl)
  · exact C84_all _ _ _ _ _ adder_behaves adder_returns e hfair hno n0 0 _ hx rfl _ (by simp) hq [] (by rw [hb]; simp [Conn.new])
  · refine C84_over _ _ _ _ _ adder_behaves adder_returns e hfair hno n0 0 _ hx rfl _ hq [] ?_ (by rw [hb]; simp [Conn.new]) (.inr hend)
    intro cmd packet rest hw hp h
    have := PacketFor_pos hp
    have hl := congrArg List.length h
    simp at hl
    omega
  · obtain ⟨m, y, h1, h2, h3, _⟩ := C84_hangup _ _ _ _ _ adder_behaves adder_returns e hfair hno n0 0 _ hx hend rfl
    exact ⟨m, y, h1, h2, h3⟩

/-- C84_completes on `submitted`: something was started. -/
example : ∃ (e : WholeExec adder adderEnv dev (Whole.init adder [devA] adderWorld)) (n t : Nat) (ev : Event (HandlerId → Nat)),
    e.label n = some (.server (.start t ev)) ∧
    ∃ m, n < m ∧ (e.label m = some (.server (.ended t)) ∨ ∃ o, e.label m = some (.server (.dropped t o))) := by
  obtain ⟨e, n0, hfair, hno, h3, _, n, y, hn, hy, hs, _⟩ := submitted
  obtain ⟨e', B⟩ := exists_behind adder_behaves e
  obtain ⟨k, t, ev, _, hl⟩ := B.started (n := n0) (m := n) (c := 0) (x := Conn.new ⟨[], .unexpectedEof⟩)
    (fun t => by rw [h3]; rfl) (by rw [h3]; rfl) (by omega) hy (fun h => by rw [h] at hs; cases hs)
  exact ⟨e, k, t, ev, hl, C84_completes _ _ _ _ _ adder_behaves adder_returns e hfair hno t k ev hl⟩

/-- C84_stuck in the execution of `asleep` in which the handler sleeps on. -/
example : ∃ (e : WholeExec sleeper adderEnv dev (Whole.init sleeper [devA, devB] adderWorld)) (n c : Nat) (x : Conn),
    (e.state n).fine.inside 0 ≠ none ∧ (e.state n).fine.cfg.conns c = some x ∧
    ∀ m, n ≤ m → (e.state m).fine.inside 0 ≠ none ∧ (e.state m).fine.cfg.conns c = some x ∧
      (e.state m).got c = (e.state n).got c ∧
      (e.state m).fine.cfg.shared.used = (e.state n).fine.cfg.shared.used := by
  have hb : Behaves sleeper adderEnv := fun c u l v r h hr => by simp [sleeper] at hr
  obtain ⟨ls, s, i, hr, hi, _, ⟨f, x, hf, ho, hx⟩, hn, _⟩ := asleep
  have st : Whole.Step sleeper adderEnv dev s none s := by
    have st := Whole.Step.handler (env := adderEnv) (p := dev) s none _ (.work s.fine 0 i hi rfl) trivial
    have h1 : upd s.fine.inside 0 (some i) = s.fine.inside := by
      funext t
      by_cases h : t = 0
      · subst h; rw [upd_self, hi]
      · exact upd_ne _ _ h
    have h2 : upd s.fine.cfg.shared.world.user (sleeper.obj i.call.target) (s.fine.cfg.shared.world.user (sleeper.obj i.call.target))
        = s.fine.cfg.shared.world.user := by
      funext o
      by_cases h : o = sleeper.obj i.call.target
      · subst h; exact upd_self _ _ _
      · exact upd_ne _ _ h
    have h3 : ∀ l v, sleeper.step l v = (l, v) := fun _ _ => rfl
    simp only [h3, Fine.setObj, h2] at st
    rw [show ({ call := i.call, loc := i.loc, cont := i.cont, entry := i.entry } : Inside sleeper) = i from rfl, h1] at st
    exact st
  obtain ⟨N, e, hs, _⟩ := WholeExec.after hr
    { state := fun _ => s, label := fun _ => none, init := rfl, step := fun _ => .inl st }
  have hN : e.state N = s := hs 0
  refine ⟨e, N, 0, x, by rw [hN, hi]; simp, by rw [hN]; exact hx, ?_⟩
  exact C84_stuck sleeper adderEnv dev _ _ hb e N 0 0 i f x (by rw [hN]; exact hi) (by rw [hN]; exact hf) ho
    (by rw [hN]; exact hx) hn

end Usbip
