import Verif.Lemmas.Turn
import Verif.Props.Sockets
/-!
# What arrives is answered (C83)
-/

namespace Usbip
open Spec Samples

/-! ## C83 -/

/-- C83: in a fair execution in which no `remove_device` call waits for the imported devices (see
`C62_needed`), a request that has arrived in full at a running connection is answered, and the client
gets the answer in full; unless the task panics on it, the task is dropped or writing to the socket fails.
Whatever has arrived after the request stays for the next one. -/
theorem C83_answered {σ} (env : Env σ) (p : Profile) (devices : List Device) (w : World σ)
    (e : TcpExec env p (Tcp.init devices w)) (hfair : e.Fair)
    (hno : ∀ n t f i m k, (e.state n).cfg.flights t = some f → f.ev = .removeDevice i → f.code ≠ .lock .used m k)
    (n c : Nat) (x : Conn) (hx : (e.state n).cfg.conns c = some x) (hr : x.status = .running)
    (cmd : Cmd) (packet rest : Bytes) (hw : WellFormed p.debugAssertions cmd) (hp : PacketFor cmd packet)
    (hb : x.input.bytes ++ (e.state n).buf c = packet ++ rest) :
    ∃ m y, n < m ∧ (e.state m).cfg.conns c = some y ∧ (e.state m).cfg.idle c ∧ (e.state m).got c = y.output ∧
      ((∃ resp more, AnswersNext p x y cmd resp ∧ y.input.bytes ++ (e.state m).buf c = rest ++ more) ∨
        y.status = .panicked ∨ Faulted e c m y) := by
  have hread := arrived_packet p cmd packet rest hw hp
  obtain ⟨m, y, more, hm, hy, hi, hg, _, h⟩ := e.next hfair hno hx hr (.inl (by rw [hb, hread]; simp))
  refine ⟨m, y, hm, hy, hi, hg, ?_⟩
  rw [hb, hread] at h
  rcases h with h | ⟨resp, ha, hb'⟩ | h
  · exact .inr (.inr h)
  · exact .inl ⟨resp, more, ha, hb'⟩
  · exact .inr (.inl h)

/-- C83: any number of requests that have arrived at a running connection are answered, in their order,
one response each, and the client gets all of them. -/
theorem C83_all {σ} (env : Env σ) (p : Profile) (devices : List Device) (w : World σ)
    (e : TcpExec env p (Tcp.init devices w)) (hfair : e.Fair)
    (hno : ∀ n t f i m k, (e.state n).cfg.flights t = some f → f.ev = .removeDevice i → f.code ≠ .lock .used m k)
    (n c : Nat) (x : Conn) (hx : (e.state n).cfg.conns c = some x) (hr : x.status = .running)
    (qs : List (Cmd × Bytes)) (hne : qs ≠ []) (hq : Requests p qs) (rest : Bytes)
    (hb : x.input.bytes ++ (e.state n).buf c = (qs.map (·.2)).flatten ++ rest) :
    ∃ m y, n < m ∧ (e.state m).cfg.conns c = some y ∧ (e.state m).cfg.idle c ∧ (e.state m).got c = y.output ∧
      ((AnswersAll p x y (qs.map (·.1)) ∧ y.status = .running) ∨ y.status = .panicked ∨ Faulted e c m y) := by
  obtain ⟨m, y, hm, hy, hi, h⟩ := served_all e hfair hno c qs hq rest n x hx hr hb
  obtain ⟨hlt, hi, hg⟩ := hi (.inl hne)
  refine ⟨m, y, hlt, hy, hi, hg, ?_⟩
  rcases h with ⟨more, h1, h2, _⟩ | h
  · exact .inl ⟨h1, h2⟩
  · exact .inr h

/-- C83: when a client has hung up, or has sent something that is no request (`hin`: what has arrived is
enough for the server to see it), then all the requests before are answered, and the connection ends: its
device is given back, if it has one (or its task panics, or is dropped). -/
theorem C83_over {σ} (env : Env σ) (p : Profile) (devices : List Device) (w : World σ)
    (e : TcpExec env p (Tcp.init devices w)) (hfair : e.Fair)
    (hno : ∀ n t f i m k, (e.state n).cfg.flights t = some f → f.ev = .removeDevice i → f.code ≠ .lock .used m k)
    (n c : Nat) (x : Conn) (hx : (e.state n).cfg.conns c = some x) (hr : x.status = .running)
    (qs : List (Cmd × Bytes)) (hq : Requests p qs) (rest : Bytes) (hrest : NoRequest p rest)
    (hb : x.input.bytes ++ (e.state n).buf c = (qs.map (·.2)).flatten ++ rest)
    (hin : (readCommand p : Rd Arrived Cmd) ⟨rest⟩ ≠ .diverge ∨ (e.state n).ended c ≠ none) :
    ∃ m y, n < m ∧ (e.state m).cfg.conns c = some y ∧ (e.state m).cfg.idle c ∧ (e.state m).got c = y.output ∧
      ((AnswersAll p x y (qs.map (·.1)) ∧ Over y) ∨ y.status = .panicked ∨ Faulted e c m y) := by
  obtain ⟨m, y, hm, hy, hi, h⟩ := served_all e hfair hno c qs hq rest n x hx hr hb
  rcases h with ⟨more, h1, h2, h3, h4⟩ | h
  · have hin' : (readCommand p : Rd Arrived Cmd) ⟨y.input.bytes ++ (e.state m).buf c⟩ ≠ .diverge ∨
        (e.state m).ended c ≠ none := by
      rcases hin with h | h
      · rw [h3]; exact .inl (other_ne_diverge p _ more h)
      · cases her : (e.state n).ended c with
        | none => exact absurd her h
        | some er => exact .inr (by rw [(h4 er her).2]; simp)
    have hno' : ∀ q, (readCommand p : Rd Arrived Cmd) ⟨y.input.bytes ++ (e.state m).buf c⟩ ≠ .ok q := by
      rintro ⟨cmd, ⟨r⟩⟩ hok
      rw [h3] at hok
      have hd : (readCommand p : Rd Arrived Cmd) ⟨rest⟩ ≠ .diverge → False := by
        intro hd
        rw [arrived_more p rest more hd] at hok
        cases hr : (readCommand p : Rd Arrived Cmd) ⟨rest⟩ with
        | ok q =>
          obtain ⟨cmd', ⟨r'⟩⟩ := q
          obtain ⟨hw, packet, hp, he⟩ := arrived_inv hr
          exact hrest cmd' packet r' hw hp he
        | err e => rw [hr] at hok; simp [Bind.bind, Outcome.bind] at hok
        | panic => rw [hr] at hok; simp [Bind.bind, Outcome.bind] at hok
        | diverge => exact hd hr
      rcases hin with h | h
      · exact hd h
      · cases her : (e.state n).ended c with
        | none => exact absurd her h
        | some er =>
          rw [(h4 er her).1, List.append_nil] at hok
          exact hd (by rw [hok]; simp)
    obtain ⟨m', z, more', hm', hz, hiz, hgz, _, h⟩ := e.next hfair hno hy h2 hin'
    refine ⟨m', z, by omega, hz, hiz, hgz, ?_⟩
    rcases h with h | h
    · exact .inr (.inr h)
    · cases hr : (readCommand p : Rd Arrived Cmd) ⟨y.input.bytes ++ (e.state m).buf c⟩ with
      | ok q => exact absurd hr (hno' q)
      | _ => rw [hr] at h; exact .inl ⟨AnswersAll_over h1 h.2.1 h.2.2, h.1⟩
  · have hs : y.status ≠ .running := by
      rcases h with h | h
      · rw [h]; simp
      · exact h.1
    obtain ⟨hlt, hi, hg⟩ := hi (.inr hs)
    exact ⟨m, y, hlt, hy, hi, hg, .inr h⟩

/-- C83: when a client has hung up, its connection comes to an end, whatever the client has sent, and is over
for good. -/
theorem C83_hangup {σ} (env : Env σ) (p : Profile) (devices : List Device) (w : World σ)
    (e : TcpExec env p (Tcp.init devices w)) (hfair : e.Fair)
    (hno : ∀ n t f i m k, (e.state n).cfg.flights t = some f → f.ev = .removeDevice i → f.code ≠ .lock .used m k)
    (n c : Nat) (x : Conn) (hx : (e.state n).cfg.conns c = some x) (hend : (e.state n).ended c ≠ none)
    (hr : x.status = .running) :
    ∃ m y, n < m ∧ (e.state m).cfg.conns c = some y ∧ (Over y ∨ Faulted e c m y) ∧
      ∀ m', m ≤ m' → (e.state m').cfg.idle c ∧ (e.state m').got c = y.output ∧
        ∃ z, (e.state m').cfg.conns c = some z ∧ z.status = y.status ∧ z.current = y.current ∧ z.served = y.served := by
  obtain ⟨qs, rest, hq, hb, hrest⟩ := split_requests p (x.input.bytes ++ (e.state n).buf c)
  obtain ⟨m, y, hm, hy, hi, hg, h⟩ := C83_over env p devices w e hfair hno n c x hx hr qs hq rest hrest hb (.inr hend)
  have h' : Over y ∨ Faulted e c m y := by
    rcases h with ⟨_, h⟩ | h | h
    · exact .inl h
    · exact .inl (.inl h)
    · exact .inr h
  have hs : y.status ≠ .running := by
    rcases h' with h | h
    · exact h.ne
    · exact h.1
  refine ⟨m, y, hm, hy, h', fun m' hm' => ?_⟩
  obtain ⟨h1, h2, z, h3, h4, h5, _, h7⟩ := e.stays_over hy hs hi hm'
  exact ⟨h1, h2.trans hg, z, h3, h4, h5, h7⟩

/-- C83: every call of `add_device` and `remove_device` that was started returns, and every command that is
being worked on is done with, unless it is dropped. -/
theorem C83_completes {σ} (env : Env σ) (p : Profile) (devices : List Device) (w : World σ)
    (e : TcpExec env p (Tcp.init devices w)) (hfair : e.Fair)
    (hno : ∀ n t f i m k, (e.state n).cfg.flights t = some f → f.ev = .removeDevice i → f.code ≠ .lock .used m k)
    (t n : Nat) (ev : Event σ) (hs : e.label n = .server (.start t ev)) :
    ∃ m, n < m ∧ (e.label m = .server (.ended t) ∨ ∃ o, e.label m = .server (.dropped t o)) := by
  have hfl : ∃ f, (e.state (n + 1)).cfg.flights t = some f := by
    have st := tcp_flightStep (e.step n)
    rw [hs] at st
    obtain ⟨a, b, st, _, _, hb, _⟩ := st
    rw [← hb]
    cases st <;> exact ⟨_, upd_self _ _ _⟩
  obtain ⟨f, hf⟩ := hfl
  obtain ⟨m, g, hm, hl, _⟩ := e.run.completes (H := e.run.all_move (e.works hfair) hno) 26 (n + 1) t f hf
    (e.run.within (n + 1) t f hf)
  have hlab : ∀ lb0, e.run.label m = some lb0 → e.label m = .server lb0 := by
    intro lb0 h
    change serverStep (e.label m) = some lb0 at h
    cases hl : e.label m <;> rw [hl] at h <;> simp [serverStep] at h
    rw [h]
  refine ⟨m, by omega, ?_⟩
  rcases hl with hl | ⟨o, hl⟩
  · exact .inl (hlab _ hl)
  · exact .inr ⟨o, hlab _ hl⟩

/-! ## Concrete executions -/

/-- One event of an interactive history, from a server at rest to the next one. -/
theorem calm_next_user {σ} {env : Env σ} {p : Profile} {devices : List Device} {w : World σ} {ls : List (TcpLabel σ)}
    {s : Tcp σ} (h : Tcp.Reach env p (Tcp.init devices w) ls s) (hq : AtRest s.cfg) (ev : NetEvent σ) :
    ∃ ls' s', Tcp.Reach env p s ls' s' ∧ AtRest s'.cfg ∧ restOf s' = (restOf s).step env p ev ∧
      (∀ u ev', TcpLabel.server (.start u ev') ∈ ls' → live ev' = ev) ∧
      ∀ f crash, TcpLabel.server (.outside (.user f crash)) ∈ ls' → ev = .user f crash := by
  have none : ∀ {s : Cfg σ}, AtRest s → ∀ t, s.flights t = none := by
    rintro s ⟨sh, conns, rfl⟩ t; rfl
  obtain ⟨ls', s', hr, hq', he, hns⟩ := calm_step env p s hq (fun c => (TInv.reach h).idle c (fun t f hf => by
    rw [none hq t] at hf; simp at hf)) ev
  refine ⟨ls', s', hr, hq', ?_, hns, fun f crash hf => ?_⟩
  rotate_left
  · rcases he with he | ⟨rfl, _⟩
    · have : (.user f crash : NetEvent σ) ∈ ls'.filterMap tcpEvent := List.mem_filterMap.mpr ⟨_, hf, rfl⟩
      rw [he, List.mem_singleton] at this
      exact this.symm
    · cases hf
  have h1 : (Net.init devices w).run env p (ls.filterMap tcpEvent) = restOf s :=
    C79_quiet env p devices w ls s h (none hq)
  have h2 : (Net.init devices w).run env p ((ls ++ ls').filterMap tcpEvent) = restOf s' :=
    C79_quiet env p devices w _ s' (h.trans hr) (none hq')
  rw [Net.run] at h1
  rw [List.filterMap_append, Net.run, List.foldl_append, h1] at h2
  rcases he with he | ⟨rfl, he⟩
  · rw [← h2, he]; rfl
  · rw [← h2, he]; rfl

theorem calm_next {σ} {env : Env σ} {p : Profile} {devices : List Device} {w : World σ} {ls : List (TcpLabel σ)}
    {s : Tcp σ} (h : Tcp.Reach env p (Tcp.init devices w) ls s) (hq : AtRest s.cfg) (ev : NetEvent σ) :
    ∃ ls' s', Tcp.Reach env p s ls' s' ∧ AtRest s'.cfg ∧ restOf s' = (restOf s).step env p ev ∧
      ∀ u ev', TcpLabel.server (.start u ev') ∈ ls' → live ev' = ev := by
  obtain ⟨ls', s', h1, h2, h3, h4, _⟩ := calm_next_user h hq ev
  exact ⟨ls', s', h1, h2, h3, h4⟩

/-- A client has connected, has sent two requests at once and has hung up. -/
def twoAndOut : Tcp Nat where
  cfg := { Cfg.init [devA] world with conns := setConn (fun _ => none) 0 (Conn.new ⟨[], .unexpectedEof⟩) }
  buf := upd (fun _ => []) 0 (wireCmd (.reqDevlist 0) ++ wireCmd (.reqImport 0 busA))
  ended := upd (fun _ => none) 0 (some .unexpectedEof)
  got := fun _ => []

theorem twoAndOut_reach : Tcp.Reach Samples.env dev (Tcp.init [devA] world)
    [.server (.outside (.connect 0 ⟨[], .unexpectedEof⟩)),
      .arrive 0 (wireCmd (.reqDevlist 0) ++ wireCmd (.reqImport 0 busA)), .hangup 0 .unexpectedEof] twoAndOut := by
  have r1 := Tcp.Reach.tail .refl (.connect (env := Samples.env) (p := dev) (Tcp.init [devA] world) 0 rfl)
  have r2 := Tcp.Reach.tail r1 (.arrive _ 0 (wireCmd (.reqDevlist 0) ++ wireCmd (.reqImport 0 busA)) (by simp [setConn]) rfl)
  exact Tcp.Reach.tail r2 (.hangup _ 0 .unexpectedEof (by simp [setConn]) rfl)

theorem net_iterate_other {σ} {env : Env σ} {p : Profile} {n : Net σ} {c c' : Nat} {w : WriteRes} (h : c' ≠ c) :
    (n.step env p (.iterate c w)).sys.conns c' = n.sys.conns c' := by
  simp only [Net.step]
  split
  · simp only [Sys.step]
    split
    · split
      · exact setConn_ne h
      · rfl
    · rfl
  · rfl

/-- The hypotheses of C83 are met: a client sends two requests at once and hangs up. -/
theorem pipelined : ∃ e : TcpExec Samples.env dev (Tcp.init [devA] world), e.Fair ∧
    (∀ n t i, e.label n ≠ .server (.start t (.removeDevice i))) ∧ e.state 3 = twoAndOut ∧
    ∃ n y, 3 < n ∧ (e.state n).cfg.conns 0 = some y ∧ y.served.map (·.1) = [.reqDevlist 0, .reqImport 0 busA] ∧
      y.status = .closed ∧ y.current = none := by
  have r3 := twoAndOut_reach
  obtain ⟨l4, s4, r4, q4, e4, n4⟩ := calm_next r3 ⟨_, _, rfl⟩ (.iterate 0 .full)
  obtain ⟨l5, s5, r5, q5, e5, n5⟩ := calm_next (r3.trans r4) q4 (.iterate 0 .full)
  obtain ⟨l6, s6, r6, q6, e6, n6⟩ := calm_next ((r3.trans r4).trans r5) q5 (.iterate 0 .full)
  rw [e5, e4] at e6
  have hn : (((((restOf twoAndOut).step Samples.env dev (.iterate 0 .full)).step Samples.env dev (.iterate 0 .full)).step
        Samples.env dev (.iterate 0 .full)).sys.conns 0).map (fun x => (x.served.map (·.1), x.current, x.status, x.input.bytes))
        = some ([Cmd.reqDevlist 0, .reqImport 0 busA], none, .closed, []) := by
    decide +kernel
  rw [← e6] at hn
  replace hn : ((restOf s6).sys.conns 0).map (fun x => (x.served.map (·.1), x.current, x.status, x.input.bytes))
      = some ([Cmd.reqDevlist 0, .reqImport 0 busA], none, .closed, []) := hn
  obtain ⟨y, hy, hy1, hy2, hy3, hy4⟩ : ∃ y, s6.cfg.conns 0 = some y ∧ y.served.map (·.1) = [.reqDevlist 0, .reqImport 0 busA] ∧
      y.current = none ∧ y.status = .closed ∧ y.input.bytes ++ s6.buf 0 = [] := by
    cases hc : s6.cfg.conns 0 with
    | none => simp [restOf, hc] at hn
    | some y =>
      simp only [restOf, hc, Option.map_some, Option.some.injEq, Prod.mk.injEq] at hn
      exact ⟨y, rfl, hn.1, hn.2.1, hn.2.2.1, hn.2.2.2⟩
  have hother : ∀ c, c ≠ 0 → s6.cfg.conns c = none := by
    intro c hc
    have : (restOf s6).sys.conns c = none := by
      rw [e6, net_iterate_other hc, net_iterate_other hc, net_iterate_other hc]
      simp [restOf, twoAndOut, setConn, hc]
    cases h : s6.cfg.conns c with
    | none => rfl
    | some x => simp [restOf, h] at this
  have rall := (r4.trans r5).trans r6
  obtain ⟨e3, hs, hl, hp⟩ := Spec.TcpExec.after rall (.rest Samples.env dev s6)
  obtain ⟨e, hs', hl', hp'⟩ := Spec.TcpExec.after r3 e3
  have hrest : ∀ m, 3 + (l4 ++ l5 ++ l6).length ≤ m → e.state m = s6 := by
    intro m hm
    obtain ⟨j, rfl⟩ := Nat.exists_eq_add_of_le hm
    rw [Nat.add_assoc]
    exact (hs' _).trans (hs j)
  have hfl : ∀ t, s6.cfg.flights t = none := by
    obtain ⟨sh, conns, h⟩ := q6
    intro t; rw [h]; rfl
  refine ⟨e, ?_, ?_, ?_, ?_⟩
  · refine e.rest_fair _ hrest _ ?_ ?_ ?_ ?_
    · intro t lb s' st ha hp
      have st := tcp_flightStep st
      obtain ⟨a, b, st, ha', _⟩ := st
      obtain ⟨g, rfl, _⟩ := first_step st (by rw [ha']; exact hfl t) hp
      exact ha
    · intro c s' st
      cases st with
      | take _ x bs rest hc hi hb =>
        by_cases h : c = 0
        · subst h
          have hnil := (List.append_eq_nil_iff.1 hy4).2
          rw [hnil] at hb
          obtain ⟨rfl, rfl⟩ := List.append_eq_nil_iff.1 hb.symm
          dsimp only
          rw [upd_self, hnil]
        · rw [hother c h] at hc; simp at hc
    · intro c t w s' st
      have run : ∀ x, s6.cfg.conns c = some x → x.status ≠ .running := by
        intro x hx
        by_cases h : c = 0
        · subst h; rw [hy] at hx; cases hx; rw [hy3]; simp
        · rw [hother c h] at hx; simp at hx
      cases st with
      | iterate _ _ _ x ht hc hr hi hd => exact run x hc hr
      | iterateEnd _ _ _ x e ht hc hr hi he hb => exact run x hc hr
      | other _ _ st h1 h2 h3 => exact h2 _ _ _ rfl
    · intro c _ b s' st
      cases st with
      | piece t _ f k y bs ht ho hk hy hp => rw [hfl t] at ht; simp at ht
  · intro n t i h
    by_cases h3 : n < 3
    · have hm := hp' n h3
      rw [h] at hm
      simp at hm
    · obtain ⟨k, rfl⟩ := Nat.exists_eq_add_of_le (Nat.not_lt.1 h3)
      rw [show e.label (3 + k) = e3.label k from hl' k] at h
      by_cases hk : k < (l4 ++ l5 ++ l6).length
      · have hm := hp k hk
        rw [h] at hm
        simp only [List.mem_append] at hm
        have : live (Event.removeDevice i : Event Nat) = .iterate 0 .full := by
          rcases hm with (hm | hm) | hm
          · exact n4 _ _ hm
          · exact n5 _ _ hm
          · exact n6 _ _ hm
        simp [live] at this
      · obtain ⟨j, rfl⟩ := Nat.exists_eq_add_of_le (Nat.not_lt.1 hk)
        rw [hl j] at h
        simp [Spec.TcpExec.rest] at h
  · exact (hs' 0).trans e3.init
  · exact ⟨3 + (l4 ++ l5 ++ l6).length + 1, y, by omega, by rw [hrest _ (by omega)]; exact hy, hy1, hy3, hy2⟩

/-- The two requests of `pipelined`, as C83 wants them. -/
theorem two_requests : Requests dev [(.reqDevlist 0, wireCmd (.reqDevlist 0)), (.reqImport 0 busA, wireCmd (.reqImport 0 busA))] := by
  intro q hq
  simp only [List.mem_cons, List.not_mem_nil, or_false] at hq
  rcases hq with rfl | rfl
  · have hw : WellFormed dev.debugAssertions (.reqDevlist 0) := by simp [WellFormed]
    exact ⟨hw, packetFor_wire _ hw⟩
  · have hw : WellFormed dev.debugAssertions (.reqImport 0 busA) := by decide +kernel
    exact ⟨hw, packetFor_wire _ hw⟩

/-- C83 on `pipelined`: all hypotheses are met at time 3, with the first request, with both of them, and
with the end of the input. -/
example : ∃ e : TcpExec Samples.env dev (Tcp.init [devA] world), e.state 3 = twoAndOut ∧
    (∃ m y, 3 < m ∧ (e.state m).cfg.conns 0 = some y ∧ (e.state m).cfg.idle 0 ∧ (e.state m).got 0 = y.output ∧
      ((∃ resp more, AnswersNext dev (Conn.new ⟨[], .unexpectedEof⟩) y (.reqDevlist 0) resp ∧
        y.input.bytes ++ (e.state m).buf 0 = wireCmd (.reqImport 0 busA) ++ more) ∨
        y.status = .panicked ∨ Faulted e 0 m y)) ∧
    (∃ m y, 3 < m ∧ (e.state m).cfg.conns 0 = some y ∧ (e.state m).cfg.idle 0 ∧ (e.state m).got 0 = y.output ∧
      ((AnswersAll dev (Conn.new ⟨[], .unexpectedEof⟩) y [.reqDevlist 0, .reqImport 0 busA] ∧ y.status = .running) ∨
        y.status = .panicked ∨ Faulted e 0 m y)) ∧
    (∃ m y, 3 < m ∧ (e.state m).cfg.conns 0 = some y ∧ (e.state m).cfg.idle 0 ∧ (e.state m).got 0 = y.output ∧
      ((AnswersAll dev (Conn.new ⟨[], .unexpectedEof⟩) y [.reqDevlist 0, .reqImport 0 busA] ∧ Over y) ∨
        y.status = .panicked ∨ Faulted e 0 m y)) ∧
    ∃ m y, 3 < m ∧ (e.state m).cfg.conns 0 = some y ∧ (Over y ∨ Faulted e 0 m y) := by
  obtain ⟨e, hfair, hno, h3, _⟩ := pipelined
  have hx : (e.state 3).cfg.conns 0 = some (Conn.new ⟨[], .unexpectedEof⟩) := by rw [h3]; rfl
  have hb : (e.state 3).buf 0 = wireCmd (.reqDevlist 0) ++ wireCmd (.reqImport 0 busA) := by rw [h3]; rfl
  have hend : (e.state 3).ended 0 ≠ none := by rw [h3]; simp [twoAndOut, upd_self]
  have hq := two_requests
  refine ⟨e, h3, ?_, ?_, ?_, ?_⟩
  · exact C83_answered _ _ _ _ e hfair (e.no_removals hno) 3 0 _ hx rfl (.reqDevlist 0) _ _
      (hq _ (List.mem_cons_self ..)).1 (hq _ (List.mem_cons_self ..)).2 (by rw [hb]; rfl)
  · exact C83_all _ _ _ _ e hfair (e.no_removals hno) 3 0 _ hx rfl _ (by simp) hq [] (by rw [hb]; simp [Conn.new])
  · refine C83_over _ _ _ _ e hfair (e.no_removals hno) 3 0 _ hx rfl _ hq [] ?_ (by rw [hb]; simp [Conn.new]) (.inr hend)
    intro cmd packet rest hw hp h
    have := PacketFor_pos hp
    have hl := congrArg List.length h
    simp at hl
    omega
  · obtain ⟨m, y, h1, h2, h3, _⟩ := C83_hangup _ _ _ _ e hfair (e.no_removals hno) 3 0 _ hx hend rfl
    exact ⟨m, y, h1, h2, h3⟩

/-- An import, while another program has the imported devices for reading, gets as far as waiting for them. -/
theorem import_asks {σ} {env : Env σ} {p : Profile} {s : Tcp σ} {ev : Event σ} {k : Task σ}
    (hf : s.cfg.flights 1 = some (Flight.start ev (some 1) (.lock .used .r <| .unlock .used <| .lock .used .w k)))
    (hq : s.cfg.queue .used = [])
    (hc : ∀ u g h, s.cfg.flights u = some g → g.held .used = some h → h = .r) :
    ∃ s', Tcp.Reach env p s [.server (.inner 1), .server (.inner 1), .server (.inner 1), .server (.inner 1)] s' ∧
      s'.cfg.flights = upd s.cfg.flights 1 (some ⟨ev, some 1, .lock .used .w k, fun _ => none, true, false⟩) ∧
      s'.cfg.conns = s.cfg.conns ∧ s'.buf = s.buf ∧ s'.got = s.got := by
  have nosend : ∀ {s : Tcp σ} {g : Flight σ}, s.cfg.flights 1 = some g → (∀ k, g.code ≠ .send k) →
      ∀ t f k, (.inner 1 : Label σ) = .inner t → s.cfg.flights t = some f → f.code ≠ .send k := by
    intro s g hg hs t f k h hf
    cases h
    rw [hg] at hf; cases hf
    exact hs k
  have st1 : Tcp.Step env p s _ _ := .other s _ _ (.request s.cfg 1 _ .used .r _ hf rfl rfl) (by simp) (by simp)
    (nosend hf (by simp [Flight.start]))
  have r1 := Tcp.Reach.tail .refl st1
  generalize hs1 : (⟨_, _, _, _⟩ : Tcp σ) = s1 at r1
  have f1 : s1.cfg.flights = upd s.cfg.flights 1 (some ⟨ev, some 1, .lock .used .r <| .unlock .used <| .lock .used .w k,
    fun _ => none, true, false⟩) := by rw [← hs1]; rfl
  have q1 : s1.cfg.queue .used = [1] := by rw [← hs1]; simp [upd_self, hq]
  have o1 : s1.cfg.conns = s.cfg.conns ∧ s1.buf = s.buf ∧ s1.got = s.got := by rw [← hs1]; exact ⟨rfl, rfl, rfl⟩
  have g1 : s1.cfg.flights 1 = some ⟨ev, some 1, .lock .used .r <| .unlock .used <| .lock .used .w k,
    fun _ => none, true, false⟩ := by rw [f1]; exact upd_self _ _ _
  have st2 : Tcp.Step env p s1 _ _ := .other s1 _ _ (.grant s1.cfg 1 _ .used .r _ [] g1 rfl rfl q1 (by
      intro u g h hu hg
      rw [f1] at hu
      by_cases e : u = 1
      · subst e; rw [upd_self] at hu; cases hu; simp at hg
      · rw [upd_ne _ _ e] at hu
        rw [hc u g h hu hg]; rfl)) (by simp) (by simp) (nosend g1 (by simp))
  have r2 := Tcp.Reach.tail r1 st2
  generalize hs2 : (⟨_, _, _, _⟩ : Tcp σ) = s2 at r2
  have g2 : s2.cfg.flights 1 = some ⟨ev, some 1, .unlock .used <| .lock .used .w k,
    upd (fun _ => none) .used (some .r), false, false⟩ := by
    rw [← hs2]; show upd s1.cfg.flights 1 _ 1 = _; exact upd_self _ _ _
  have f2 : s2.cfg.flights = upd s.cfg.flights 1 (some ⟨ev, some 1, .unlock .used <| .lock .used .w k,
    upd (fun _ => none) .used (some .r), false, false⟩) := by
    rw [← hs2]; show upd s1.cfg.flights 1 _ = _; rw [f1, upd_upd]
  have o2 : s2.cfg.conns = s.cfg.conns ∧ s2.buf = s.buf ∧ s2.got = s.got := by rw [← hs2]; exact o1
  have st3 : Tcp.Step env p s2 _ _ := .other s2 _ _ (.unlock s2.cfg 1 _ .used _ g2 rfl) (by simp) (by simp)
    (nosend g2 (by simp))
  have r3 := Tcp.Reach.tail r2 st3
  generalize hs3 : (⟨_, _, _, _⟩ : Tcp σ) = s3 at r3
  have f3 : s3.cfg.flights = upd s.cfg.flights 1 (some ⟨ev, some 1, .lock .used .w k, fun _ => none, false, false⟩) := by
    rw [← hs3]; show upd s2.cfg.flights 1 _ = _; rw [f2, upd_upd]
    have : upd (upd (fun _ => (none : Option Mode)) Lk.used (some .r)) .used none = fun _ => none := by
      funext l; cases l <;> rfl
    dsimp only
    rw [this]
  have g3 : s3.cfg.flights 1 = some ⟨ev, some 1, .lock .used .w k, fun _ => none, false, false⟩ := by
    rw [f3]; exact upd_self _ _ _
  have o3 : s3.cfg.conns = s.cfg.conns ∧ s3.buf = s.buf ∧ s3.got = s.got := by rw [← hs3]; exact o2
  have st4 : Tcp.Step env p s3 _ _ := .other s3 _ _ (.request s3.cfg 1 _ .used .w _ g3 rfl rfl) (by simp) (by simp)
    (nosend g3 (by simp))
  have r4 := Tcp.Reach.tail r3 st4
  refine ⟨_, r4, ?_, o3⟩
  show upd s3.cfg.flights 1 _ = _
  rw [f3, upd_upd]

/-- A program waiting for a lock that another program holds does not go on. -/
theorem waits_still {σ} {env : Env σ} {p : Profile} {s s' : Cfg σ} {lb : Label σ} {t u : Nat} {f g : Flight σ}
    {l : Lk} {m h : Mode} {k : Task σ} (st : Cfg.Step env p s lb s') (ht : s.flights t = some f)
    (hk : f.code = .lock l m k) (hw : f.waiting = true) (hu : s.flights u = some g) (hh : g.held l = some h)
    (hc : compatible m h = false) (ha : Advances lb) : prog lb ≠ some t := by
  intro hp
  cases st with
  | connect => cases hp
  | user => cases hp
  | cancel => cases hp
  | iterate => exact ha
  | add => exact ha
  | remove => exact ha
  | abandon => exact ha
  | request t' f' l' m' k' ht' hk' hw' =>
    cases hp
    rw [ht] at ht'; cases ht'
    rw [hw] at hw'; cases hw'
  | grant t' f' l' m' k' q ht' hk' hw' hq hc' =>
    cases hp
    rw [ht] at ht'; cases ht'
    rw [hk] at hk'; cases hk'
    rw [hc' u g h hu hh] at hc; cases hc
  | unlock t' f' l' k' ht' hk' => cases hp; rw [ht] at ht'; cases ht'; rw [hk] at hk'; cases hk'
  | getUsed t' f' k' ht' hk' => cases hp; rw [ht] at ht'; cases ht'; rw [hk] at hk'; cases hk'
  | getAvail t' f' k' ht' hk' => cases hp; rw [ht] at ht'; cases ht'; rw [hk] at hk'; cases hk'
  | putUsed t' f' v k' ht' hk' => cases hp; rw [ht] at ht'; cases ht'; rw [hk] at hk'; cases hk'
  | putAvail t' f' v k' ht' hk' => cases hp; rw [ht] at ht'; cases ht'; rw [hk] at hk'; cases hk'
  | commit t' f' v k' ht' hk' => cases hp; rw [ht] at ht'; cases ht'; rw [hk] at hk'; cases hk'
  | send t' f' k' ht' hk' => cases hp; rw [ht] at ht'; cases ht'; rw [hk] at hk'; cases hk'
  | finish t' f' x ht' hk' => cases hp; rw [ht] at ht'; cases ht'; rw [hk] at hk'; cases hk'

/-- A program that is sending goes on only by its client having read all of the reply. -/
theorem sends_still {σ} {env : Env σ} {p : Profile} {s s' : Tcp σ} {lb : Label σ} {t c : Nat} {f : Flight σ}
    {k : Task σ} {y : Conn} (st : Tcp.Step env p s (.server lb) s') (ht : s.cfg.flights t = some f)
    (hk : f.code = .send k) (hy : k.final = some y) (ho : f.owner = some c)
    (hg : s.got c ≠ y.output) (ha : Advances lb) : prog lb ≠ some t := by
  intro hp
  cases st with
  | connect => cases hp
  | iterate => exact ha
  | iterateEnd => exact ha
  | sent t' c' g k' y' ht' ho' hk' hy' hp' =>
    cases hp
    rw [ht] at ht'; cases ht'
    rw [hk] at hk'; cases hk'
    rw [hy] at hy'; cases hy'
    rw [ho] at ho'; cases ho'
    exact hg hp'
  | other lb cfg' st h1 h2 h3 =>
    cases st with
    | connect => cases hp
    | user => cases hp
    | cancel => cases hp
    | iterate => exact ha
    | add => exact ha
    | remove => exact ha
    | abandon => exact ha
    | send t' f' k' ht' hk' => exact h3 _ _ _ rfl ht' hk'
    | request t' f' l' m' k' ht' hk' hw' => cases hp; rw [ht] at ht'; cases ht'; rw [hk] at hk'; cases hk'
    | grant t' f' l' m' k' q ht' hk' => cases hp; rw [ht] at ht'; cases ht'; rw [hk] at hk'; cases hk'
    | unlock t' f' l' k' ht' hk' => cases hp; rw [ht] at ht'; cases ht'; rw [hk] at hk'; cases hk'
    | getUsed t' f' k' ht' hk' => cases hp; rw [ht] at ht'; cases ht'; rw [hk] at hk'; cases hk'
    | getAvail t' f' k' ht' hk' => cases hp; rw [ht] at ht'; cases ht'; rw [hk] at hk'; cases hk'
    | putUsed t' f' v k' ht' hk' => cases hp; rw [ht] at ht'; cases ht'; rw [hk] at hk'; cases hk'
    | putAvail t' f' v k' ht' hk' => cases hp; rw [ht] at ht'; cases ht'; rw [hk] at hk'; cases hk'
    | commit t' f' v k' ht' hk' => cases hp; rw [ht] at ht'; cases ht'; rw [hk] at hk'; cases hk'
    | finish t' f' x ht' hk' => cases hp; rw [ht] at ht'; cases ht'; rw [hk] at hk'; cases hk'

/-- C83: that clients go on reading is needed: there is an execution that is fair but for client 0, who does
not read the list of devices they asked for, and in which the request of client 1, which has arrived in full,
is never answered. -/
theorem C83_needed : ∃ e : TcpExec Samples.env dev (Tcp.init [devA] world), e.FairFor (· ≠ 0) ∧
    (∀ n t i, e.label n ≠ .server (.start t (.removeDevice i))) ∧
    ∃ n x, (e.state n).cfg.conns 1 = some x ∧ x.status = .running ∧
      x.input.bytes ++ (e.state n).buf 1 = wireCmd (.reqImport 0 busA) ∧
      ∃ n', n ≤ n' ∧ ∀ m, n' ≤ m → (e.state m).got 1 = [] ∧ ∃ y, (e.state m).cfg.conns 1 = some y ∧ y.served = [] ∧ y.status = .running := by
  obtain ⟨ls, s, f, hr, hf, ho, hu, ha, hg, hb, _, k, y, hk, hy, hlen, hfl, hcs, hqs, hb1, hg1, he1, hns⟩ := half_reply
  have idle1 : ∀ t g, s.cfg.flights t = some g → g.owner ≠ some 1 := by
    intro t g hg
    by_cases e : t = 0
    · subst e; rw [hf] at hg; cases hg; rw [ho]; simp
    · rw [hfl t e] at hg; simp at hg
  have r1 := Tcp.Reach.tail .refl (.connect (env := Samples.env) (p := dev) s 1 (hcs 1 (by decide)))
  have r2 := Tcp.Reach.tail r1 (.arrive _ 1 (wireCmd (.reqImport 0 busA)) (by simp [setConn]) he1)
  generalize hs2 : (⟨_, _, _, _⟩ : Tcp Nat) = s2 at r2
  have f2 : s2.cfg.flights = s.cfg.flights := by subst hs2; rfl
  have c2 : s2.cfg.conns = setConn s.cfg.conns 1 (Conn.new ⟨[], .unexpectedEof⟩) := by subst hs2; rfl
  have q2 : s2.cfg.queue = s.cfg.queue := by subst hs2; rfl
  have b2 : s2.buf 1 = wireCmd (.reqImport 0 busA) := by
    subst hs2; show upd s.buf 1 (s.buf 1 ++ _) 1 = _; rw [upd_self, hb1]; rfl
  have g2 : s2.got = s.got := by subst hs2; rfl
  have r3 := Tcp.Reach.tail .refl (.take (env := Samples.env) (p := dev) s2 1 (Conn.new ⟨[], .unexpectedEof⟩)
    (wireCmd (.reqImport 0 busA)) [] (by rw [c2]; rfl) (fun t g h => idle1 t g (by rw [← f2]; exact h)) (by rw [b2, List.append_nil]))
  have hread : (readCommand dev : Rd Arrived Cmd) ⟨[] ++ wireCmd (.reqImport 0 busA)⟩ = .ok (.reqImport 0 busA, ⟨[]⟩) := rfl
  have r4 := Tcp.Reach.tail r3 (.iterate _ 1 1 .full _ (by show s2.cfg.flights 1 = none; rw [f2]; exact hfl 1 (by decide)) rfl rfl
    (fun t g h => idle1 t g (by rw [← f2]; exact h)) (by
    dsimp only [Conn.new]
    rw [hread]; simp))
  generalize hs4 : (⟨_, _, _, _⟩ : Tcp Nat) = s4 at r4
  have f4 : s4.cfg.flights = upd s.cfg.flights 1 (some (Flight.start (.iterate 1 .full) (some 1)
    (iterTask Samples.env dev (Conn.new ⟨wireCmd (.reqImport 0 busA), .unexpectedEof⟩) .full))) := by
    rw [← f2]; subst hs4; rfl
  have c4 : s4.cfg.conns = setConn s2.cfg.conns 1 (Conn.new ⟨wireCmd (.reqImport 0 busA), .unexpectedEof⟩) := by
    subst hs4; rfl
  have q4 : s4.cfg.queue = s.cfg.queue := by rw [← q2]; subst hs4; rfl
  have g4 : s4.got = s.got := by rw [← g2]; subst hs4; rfl
  have hold : ∀ u g h, s4.cfg.flights u = some g → g.held .used = some h → h = .r := by
    intro u g h hg hh
    rw [f4] at hg
    by_cases e : u = 1
    · subst e; rw [upd_self] at hg; cases hg; simp [Flight.start] at hh
    · rw [upd_ne _ _ e] at hg
      by_cases e0 : u = 0
      · subst e0; rw [hf] at hg; cases hg; rw [hu] at hh; cases hh; rfl
      · rw [hfl u e0] at hg; simp at hg
  obtain ⟨s5, r5, f5, c5, b5, g5⟩ := import_asks (env := Samples.env) (p := dev) (s := s4)
    (by rw [f4]; exact upd_self _ _ _) (by rw [q4]; exact hqs _) hold
  rw [f4, upd_upd] at f5
  have F0 : s5.cfg.flights 0 = some f := by rw [f5, upd_ne _ _ (by decide)]; exact hf
  have F1 := congrFun f5 1
  rw [upd_self] at F1
  have F2 : ∀ t, t ≠ 0 → t ≠ 1 → s5.cfg.flights t = none := fun t h0 h1 => by rw [f5, upd_ne _ _ h1]; exact hfl t h0
  have busy : ∀ c x, s5.cfg.conns c = some x → ¬ s5.cfg.idle c := by
    intro c x hx hi
    by_cases h0 : c = 0
    · subst h0; exact hi 0 f F0 ho
    by_cases h1 : c = 1
    · subst h1; exact hi 1 _ F1 rfl
    rw [c5, c4, setConn_ne h1, c2, setConn_ne h1, hcs c h0] at hx
    simp at hx
  have stuck : ∀ t lb s', Tcp.Step Samples.env dev s5 (.server lb) s' → Advances lb → prog lb ≠ some t := by
    intro t lb s' st had hpr
    by_cases h0 : t = 0
    · subst h0
      refine sends_still st F0 hk hy ho (fun h => ?_) had hpr
      rw [← h, g5, g4, hg] at hlen
      have : (3 : Nat) = 324 + _ := hlen
      omega
    by_cases h1 : t = 1
    · subst h1
      obtain ⟨a, b, st, ha', _⟩ := tcp_flightStep st
      exact waits_still st (by rw [ha']; exact F1) rfl rfl (by rw [ha']; exact F0) hu rfl had hpr
    obtain ⟨a, b, st, ha', _⟩ := tcp_flightStep st
    obtain ⟨g, rfl, _⟩ := first_step st (by rw [ha']; exact F2 t h0 h1) hpr
    exact had
  obtain ⟨L2, R2, hn2⟩ : ∃ L2, Tcp.Reach Samples.env dev s2 L2 s5 ∧
      ∀ t i, .server (.start t (.removeDevice i)) ∉ L2 := ⟨_, r4.trans r5, by simp⟩
  obtain ⟨L, R, hn⟩ : ∃ L, Tcp.Reach Samples.env dev (Tcp.init [devA] world) L s2 ∧
      ∀ t i, .server (.start t (.removeDevice i)) ∉ L := by
    refine ⟨_, hr.trans r2, fun t i h => ?_⟩
    simp only [List.mem_append, List.mem_cons, List.nil_append, List.not_mem_nil, or_false, reduceCtorEq,
      TcpLabel.server.injEq] at h
    cases hns _ _ h
  obtain ⟨e2, hs, hl, hp⟩ := Spec.TcpExec.after R2 (.rest Samples.env dev s5)
  obtain ⟨e, hs', hl', hp'⟩ := Spec.TcpExec.after R e2
  have late : ∀ m, L.length + L2.length ≤ m → e.state m = s5 := by
    intro m hm
    obtain ⟨i, rfl⟩ := Nat.exists_eq_add_of_le hm
    rw [Nat.add_assoc, hs', hs]; rfl
  have there : e.state L.length = s2 := by
    have := hs' 0
    rw [Nat.add_zero] at this
    rw [this]; exact e2.init
  refine ⟨e, ?_, ?_, L.length, Conn.new ⟨[], .unexpectedEof⟩, ?_, rfl, ?_, L.length + L2.length, Nat.le_add_right _ _, fun m hm => ?_⟩
  · refine e.rest_fair _ late _ stuck ?_ ?_ ?_
    · intro c s' st
      cases st with
      | take _ x bs rest hx hi => exact absurd hi (busy c x hx)
    · intro c t w s' st
      cases st with
      | iterate _ _ _ x _ hc _ hi => exact busy c x hc hi
      | iterateEnd _ _ _ x _ _ hc _ hi => exact busy c x hc hi
      | other _ _ _ _ h2 => exact h2 _ _ _ rfl
    · intro c hc b s' st
      cases st with
      | piece t _ g k' y' _ ht ho' hk' =>
        by_cases h0 : t = 0
        · subst h0; rw [F0] at ht; cases ht; rw [ho] at ho'; cases ho'; exact hc rfl
        by_cases h1 : t = 1
        · subst h1; rw [F1] at ht; cases ht; cases hk'
        rw [F2 t h0 h1] at ht; cases ht
  · intro n t i h
    by_cases h1 : n < L.length
    · exact hn t i (h ▸ hp' n h1)
    · obtain ⟨j, rfl⟩ := Nat.exists_eq_add_of_le (Nat.le_of_not_lt h1)
      rw [hl'] at h
      by_cases h2 : j < L2.length
      · exact hn2 t i (h ▸ hp j h2)
      · obtain ⟨j', rfl⟩ := Nat.exists_eq_add_of_le (Nat.le_of_not_lt h2)
        rw [hl] at h
        cases h
  · rw [there, c2]; simp [setConn]
  · rw [there, b2]; rfl
  · rw [late m hm, g5, g4, c5, c4]
    exact ⟨hg1, Conn.new ⟨wireCmd (.reqImport 0 busA), .unexpectedEof⟩, by simp only [setConn, if_true], rfl, rfl⟩

end Usbip
