import Verif.Lemmas.DriverLive
/-!
# A host that attaches a device and has a transfer: an execution

A process calls `server`; a client connects and sends an import request before it is accepted; when it has the
reply it sends a submit; it keeps the connection.
-/

namespace Usbip
open Spec Samples

def Spec.MachineExec.cons {τ} {code : Code τ} {env : Env (HandlerId → τ)} {p : Profile} {s s' : Machine code}
    {lb : Option (MachineLabel (HandlerId → τ))} (st : Machine.Step code env p s lb s') (e : MachineExec code env p s') :
    MachineExec code env p s where
  state n := match n with | 0 => s | n + 1 => e.state n
  label n := match n with | 0 => lb | n + 1 => e.label n
  init := rfl
  step n := match n with
    | 0 => by dsimp only; rw [e.init]; exact .inl st
    | n + 1 => e.step n

def Spec.MachineExec.rest {τ} (code : Code τ) (env : Env (HandlerId → τ)) (p : Profile) (s : Machine code) :
    MachineExec code env p s where
  state _ := s
  label _ := none
  init := rfl
  step _ := .inr ⟨rfl, rfl⟩

/-- Steps inside the server, before an execution. -/
theorem Spec.MachineExec.after {τ} {code : Code τ} {env : Env (HandlerId → τ)} {p : Profile} {s0 : Machine code} {w : Whole code}
    {ls : List (TcpLabel (HandlerId → τ))} (h : Whole.Reach code env p s0.whole ls w)
    (hl : ∀ c i, .server (.outside (.connect c i)) ∉ ls) :
    ∀ e : MachineExec code env p { s0 with whole := w }, ∃ (N : Nat) (e' : MachineExec code env p s0),
      (∀ k, e'.state (N + k) = e.state k) ∧ (∀ k, e'.label (N + k) = e.label k) ∧
      (∀ k, k < N → ∀ lb, e'.label k = some lb → ∃ l ∈ ls, lb = .inner l) ∧
      ∀ k, k ≤ N → (e'.state k).front = s0.front ∧ (e'.state k).calls = s0.calls := by
  induction h with
  | refl => exact fun e => ⟨0, e, fun k => by simp, fun k => by simp, fun k hk => by simp at hk,
      fun k hk => by obtain rfl : k = 0 := by omega
                     rw [e.init]; exact ⟨rfl, rfl⟩⟩
  | @tail ls s lb s' h st ih =>
    intro e
    obtain ⟨N, e', h1, h2, h3, h4⟩ := ih (fun c i hm => hl c i (List.mem_append_left _ hm))
      (e.cons (Machine.Step.inner { s0 with whole := s } lb s' st (fun c i hm => hl c i (by simp [hm]))))
    refine ⟨N + 1, e', fun k => ?_, fun k => ?_, fun k hk l hl => ?_, fun k hk => ?_⟩
    · rw [Nat.add_assoc, Nat.add_comm 1 k, h1]; rfl
    · rw [Nat.add_assoc, Nat.add_comm 1 k, h2]; rfl
    · by_cases hlt : k < N
      · obtain ⟨l', q1, q2⟩ := h3 k hlt l hl
        exact ⟨l', List.mem_append_left _ q1, q2⟩
      · have : k = N := by omega
        subst this
        rw [show e'.label k = e'.label (k + 0) from rfl, h2] at hl
        have : lb.map MachineLabel.inner = some l := hl
        cases lb with
        | none => cases this
        | some lb => cases this; exact ⟨lb, by simp, rfl⟩
    · by_cases hlt : k ≤ N
      · exact h4 k hlt
      · have : k = N + 1 := by omega
        subst this
        rw [h1]
        show (e.state 0).front = _ ∧ (e.state 0).calls = _
        rw [e.init]; exact ⟨rfl, rfl⟩

/-- One event on sockets at rest, and nothing else. -/
theorem calm_next_only {σ} {env : Env σ} {p : Profile} {devices : List Device} {w : World σ} {ls : List (TcpLabel σ)}
    {s : Tcp σ} (h : Tcp.Reach env p (Tcp.init devices w) ls s) (hq : AtRest s.cfg) (ev : NetEvent σ) :
    ∃ ls' s', Tcp.Reach env p s ls' s' ∧ AtRest s'.cfg ∧ restOf s' = (restOf s).step env p ev ∧
      (∀ lb ∈ ls', ∀ ev', tcpEvent lb = some ev' → ev' = ev) ∧
      ∀ u ev', TcpLabel.server (.start u ev') ∈ ls' → live ev' = ev := by
  have none : ∀ {s : Cfg σ}, AtRest s → ∀ t, s.flights t = none := by
    rintro s ⟨sh, conns, rfl⟩ t; rfl
  obtain ⟨ls', s', hr, hq', he, hns⟩ := calm_step env p s hq (fun c => (TInv.reach h).idle c (fun t f hf => by
    rw [none hq t] at hf; simp at hf)) ev
  have h1 : (Net.init devices w).run env p (ls.filterMap tcpEvent) = restOf s :=
    C79_quiet env p devices w ls s h (none hq)
  have h2 : (Net.init devices w).run env p ((ls ++ ls').filterMap tcpEvent) = restOf s' :=
    C79_quiet env p devices w _ s' (h.trans hr) (none hq')
  rw [Net.run] at h1
  rw [List.filterMap_append, Net.run, List.foldl_append, h1] at h2
  refine ⟨ls', s', hr, hq', ?_, fun lb hm ev' he' => ?_, hns⟩
  · rcases he with he | ⟨rfl, he⟩
    · rw [← h2, he]; rfl
    · rw [← h2, he]; rfl
  · rcases he with he | ⟨rfl, _⟩
    · have : ev' ∈ ls'.filterMap tcpEvent := List.mem_filterMap.mpr ⟨_, hm, he'⟩
      rw [he, List.mem_singleton] at this
      exact this
    · cases hm

/-- An execution that comes to rest, with connections that wait for their clients. -/
theorem Spec.MachineExec.rest_fair {τ} {code : Code τ} {env : Env (HandlerId → τ)} {p : Profile} {s0 s : Machine code}
    (e : MachineExec code env p s0) (N : Nat) (hs : ∀ m, N ≤ m → e.state m = s)
    (hfl : ∀ t, s.whole.fine.cfg.flights t = none) (hin : ∀ t, s.whole.fine.inside t = none)
    (hap : ∀ a, s.whole.fine.app a = none)
    (reads : ∀ c x, s.whole.fine.cfg.conns c = some x → s.whole.buf c = [])
    (loops : ∀ c x, s.whole.fine.cfg.conns c = some x → x.status = .running →
      (readCommand p : Rd Arrived Cmd) ⟨x.input.bytes⟩ = .diverge ∧ s.whole.ended c = none)
    (calls : ∀ k c q, s.calls k ≠ some (.listening (c :: q))) : e.Fair := by
  refine ⟨fun t n => ⟨max n N, by omega, .inr ?_⟩, fun t n h => ?_, fun a n => ⟨max n N, by omega, ?_⟩,
    fun c n => ⟨max n N, by omega, .inr ?_⟩, fun c n => ⟨max n N, by omega, .inr ?_⟩, fun c n => ⟨max n N, by omega, .inr ?_⟩,
    fun k n => ⟨max n N, by omega, .inr ?_⟩⟩
  · rw [hs _ (by omega)]
    rintro ⟨lb, s', st, ha⟩; exact quiet_acts hfl hin st t ha
  · obtain ⟨_, f, g, k, hf, _⟩ := h (max n N) (by omega)
    rw [hs _ (by omega), hfl] at hf; cases hf
  · rw [hs _ (by omega)]; exact hap a
  · rw [hs _ (by omega)]
    rintro ⟨s', st, hb⟩
    refine hb ?_
    have st := whole_tcp_step st (fun l e => by cases e)
    generalize ht : s'.tcp = s2 at st
    cases st with
    | take _ x bs rest hc hi hbuf =>
      have h0 : s.whole.buf c = [] := reads c x hc
      have hbuf' : s.whole.buf c = bs ++ rest := hbuf
      rw [h0] at hbuf'
      obtain ⟨_, h2⟩ := List.append_eq_nil_iff.1 hbuf'.symm
      have : s'.buf = upd s.whole.buf c rest := congrArg Tcp.buf ht
      rw [this, upd_self, h2, h0]
  · rw [hs _ (by omega)]
    rintro ⟨t, w, s', st⟩
    have st := whole_tcp_step st (fun l e => by cases e; exact id)
    generalize s'.tcp = s2 at st
    cases st with
    | iterate _ _ _ x ht hc hr hi hd => exact hd (loops c x hc hr).1
    | iterateEnd _ _ _ x e ht hc hr hi he hb =>
      have := (loops c x hc hr).2
      have he' : s.whole.ended c = some e := he
      rw [this] at he'; cases he'
    | other _ _ st h1 h2 h3 => exact h2 _ _ _ rfl
  · rw [hs _ (by omega)]
    rintro ⟨b, s', st⟩
    have st := whole_tcp_step st (fun l e => by cases e)
    generalize s'.tcp = s2 at st
    cases st with
    | piece t _ f k y bs ht ho hk hy hp =>
      have := hfl t
      have ht' : s.whole.fine.cfg.flights t = some f := ht
      rw [this] at ht'; cases ht'
  · rw [hs _ (by omega)]
    rintro ⟨c, q, h⟩; exact calls k c q h

namespace Samples

/-- What the host is asked for: the transfer of `askHandler`. -/
def wish : Urb := ⟨true, 1, 0, 64, 0, 0, 0, [0, 0, 0, 0, 0, 0, 0, 0], [], []⟩

/-- Accepted, with an import request that has not been read. -/
def welcome : Tcp (HandlerId → Nat) where
  cfg := { Cfg.init [devA] adderWorld with conns := setConn (fun _ => none) 0 (Conn.new ⟨[], .unexpectedEof⟩) }
  buf := upd (fun _ => []) 0 (wireCmd (.reqImport 0 busA))
  ended := fun _ => none
  got := fun _ => []

/-- The server after the import, and after the submit. -/
def net1 : Net (HandlerId → Nat) := (restOf welcome).step adderEnv dev (.iterate 0 .full)
def net2 : Net (HandlerId → Nat) := (net1.step adderEnv dev (.arrive 0 (wireCmd askHandler))).step adderEnv dev (.iterate 0 .full)
def reply1 : Bytes := outOf (net1.sys.conns 0)
def reply2 : Bytes := (outOf (net2.sys.conns 0)).drop reply1.length

/-- The host: before, when it has sent the submit, and when it has the reply. -/
def host0 : Driver := .start busA 65538
def host1 : Driver :=
  let d := host0.hear reply1
  { d with pending := d.pending ++ [(8, wish)], issued := d.issued ++ [(8, wish)], said := d.said ++ [wish.cmd d.devid 8] }
def host2 : Driver := host1.hear reply2

end Samples

theorem host1_facts : (host0.hear reply1).phase = .attached ∧ (host0.hear reply1).pending = [] ∧
    (host0.hear reply1).unlinks = [] ∧ (host0.hear reply1).devid = 65538 ∧
    host1.said = [.reqImport 0 busA, askHandler] ∧ host1.heard = reply1 ∧ host1.issued = [(8, wish)] ∧
    reply1.length = 320 := by
  decide +kernel

theorem host2_facts : host2.said = [.reqImport 0 busA, askHandler] ∧ host2.heard = reply1 ++ reply2 ∧ host2.phase = .attached ∧
    host2.done = [⟨8, wish, 0, [7]⟩] ∧ host2.pending = [] ∧ outOf (net2.sys.conns 0) = reply1 ++ reply2 ∧
    (net2.sys.conns 0).map (fun x => (x.status, x.input.bytes)) = some (.running, []) := by
  decide +kernel

theorem wish_wellFormed : WellFormed true (wish.cmd 65538 8) := by decide +kernel

theorem host_moves1 : host0.Moves host1 := by
  obtain ⟨h1, h2, h3, h4, _⟩ := host1_facts
  refine .submit (.hear (.refl _) reply1) 8 wish h1 ⟨fun e he => ?_, fun e he => ?_⟩ ?_
  · rw [h2] at he; cases he
  · rw [h3] at he; cases he
  · rw [h4]; exact wish_wellFormed

theorem host_moves2 : host1.Moves host2 := .hear (.refl _) reply2

theorem arrivedBy_other {σ} {label : Nat → Option (MachineLabel σ)} {c n : Nat} (h : arrivesAt c (label n) = []) :
    arrivedBy label c (n + 1) = arrivedBy label c n := by
  rw [arrivedBy, h, List.append_nil]

theorem arrivedBy_still {σ} {label : Nat → Option (MachineLabel σ)} {c n : Nat} :
    ∀ k, (∀ i, n ≤ i → i < n + k → arrivesAt c (label i) = []) → arrivedBy label c (n + k) = arrivedBy label c n := by
  intro k
  induction k with
  | zero => exact fun _ => rfl
  | succ k ih =>
    intro h
    rw [← Nat.add_assoc, arrivedBy_other (h _ (by omega) (by omega)), ih (fun i h1 h2 => h i h1 (by omega))]

theorem machine_got_mono {τ} {code : Code τ} {env : Env (HandlerId → τ)} {p : Profile} {s0 : Machine code}
    (e : MachineExec code env p s0) (n c : Nat) : (e.state n).whole.got c <+: (e.state (n + 1)).whole.got c := by
  have st := e.step n
  generalize e.state (n + 1) = s' at st ⊢
  generalize e.state n = s at st ⊢
  generalize e.label n = lb at st
  rcases st with st | ⟨_, rfl⟩
  rotate_left
  · exact List.prefix_refl _
  cases st with
  | inner lb w st hl =>
    cases st with
    | socket lb a st hl ho =>
      rcases got_step st c with ⟨h, _⟩ | ⟨_, _, _, _, bs, _, _, _, _, _, _, h⟩
      · show s.whole.got c <+: a.got c
        rw [h]; exact List.prefix_refl _
      · show s.whole.got c <+: a.got c
        rw [h]; exact List.prefix_append _ _
    | handler => exact List.prefix_refl _
  | _ => exact List.prefix_refl _

theorem no_removals {τ} {code : Code τ} {env : Env (HandlerId → τ)} {p : Profile} {devices : List Device}
    {w : World (HandlerId → τ)} (hb : Behaves code env) (e : MachineExec code env p (Machine.init code devices w))
    (h : ∀ n t i, e.label n ≠ some (.inner (.server (.start t (.removeDevice i))))) :
    ∀ n t f i m k, (e.state n).whole.fine.cfg.flights t = some f → f.ev = .removeDevice i → f.code ≠ .lock .used m k := by
  obtain ⟨e', W⟩ := exists_within hb e
  obtain ⟨e'', B⟩ := exists_behind hb e'
  intro n t f i m k hf
  refine B.no_removals (fun j u i hl => ?_) (3 * n) t f i m k (by rw [W.state0]; exact hf)
  obtain ⟨q, r, hr, rfl⟩ : ∃ q r, r < 3 ∧ j = 3 * q + r := ⟨j / 3, j % 3, by omega, by omega⟩
  match r, hr with
  | 0, _ =>
    rw [Nat.add_zero, W.label0] at hl
    have h0 := h q u i
    generalize e.label q = lb at hl h0
    unfold label0 at hl
    split at hl
    · cases hl
    · unfold inServer at hl
      split at hl
      · cases hl; exact h0 rfl
      · cases hl
  | 1, _ =>
    rw [W.label1] at hl
    unfold label1 at hl
    split at hl <;> cases hl
  | 2, _ =>
    rw [W.label2] at hl
    unfold label2 at hl
    split at hl <;> cases hl

/-- The hypotheses of C92 are met: a host attaches a device, asks for a transfer, and gets it back. -/
theorem attachedToProcess : ∃ (e : MachineExec adder adderEnv dev (Machine.init adder [devA] adderWorld)) (d : Nat → Driver)
    (T U : Nat), e.Fair ∧
    (∀ n t f i m k, (e.state n).whole.fine.cfg.flights t = some f → f.ev = .removeDevice i → f.code ≠ .lock .used m k) ∧
    Alongside e 0 busA 65538 d ∧ Delivers e 0 d ∧ 4 ≤ T ∧ T < U ∧
    (∀ n, 4 ≤ n → (e.state n).front 0 = .accepted) ∧
    ((e.state 3).calls 0 = some (.listening [0]) ∧ ∀ m k, e.label m ≠ some (.dropServe k)) ∧
    (∀ n, n ≤ T → d n = host0) ∧ (∀ n, T < n → n ≤ U → d n = host1) ∧ (∀ n, U < n → d n = host2) := by
  -- on sockets
  have r1 := Tcp.Reach.tail .refl (.connect (env := adderEnv) (p := dev) (Tcp.init [devA] adderWorld) 0 rfl)
  have r2 := Tcp.Reach.tail r1 (.arrive _ 0 (wireCmd (.reqImport 0 busA)) (by simp [setConn]) rfl)
  have R2 : Tcp.Reach adderEnv dev (Tcp.init [devA] adderWorld)
      [.server (.outside (.connect 0 ⟨[], .unexpectedEof⟩)), .arrive 0 (wireCmd (.reqImport 0 busA))] welcome := r2
  obtain ⟨l3, s3, r3, q3, e3, v3, w3⟩ := calm_next_only R2 ⟨_, _, rfl⟩ (.iterate 0 .full)
  have none : ∀ {s : Cfg (HandlerId → Nat)}, AtRest s → ∀ t, s.flights t = none := by
    rintro s ⟨sh, conns, rfl⟩ t; rfl
  have R3 := R2.trans r3
  have rest : ∀ {ls} {s : Tcp (HandlerId → Nat)}, Tcp.Reach adderEnv dev (Tcp.init [devA] adderWorld) ls s → AtRest s.cfg →
      s.got 0 = outOf ((restOf s).sys.conns 0) := by
    intro ls s h hq
    rw [(TInv.reach h).idle 0 (fun t f hf => by rw [none hq t] at hf; simp at hf)]
    simp only [restOf]
    cases s.cfg.conns 0 <;> rfl
  have g3 : s3.got 0 = reply1 := by rw [rest R3 q3, e3]; rfl
  have c3 : s3.cfg.conns 0 ≠ .none := by
    intro h
    have : ((restOf s3).sys.conns 0).isSome = true := by rw [e3]; decide +kernel
    simp [restOf, h] at this
  have x3 : s3.ended 0 = .none := by
    have : (restOf s3).ended 0 = .none := by rw [e3]; decide +kernel
    exact this
  have r4 := Tcp.Step.arrive (env := adderEnv) (p := dev) s3 0 (wireCmd askHandler) c3 x3
  have R4 := R3.tail r4
  generalize hs4 : ({ s3 with buf := upd s3.buf 0 (s3.buf 0 ++ wireCmd askHandler) } : Tcp (HandlerId → Nat)) = s4 at r4 R4
  have q4 : AtRest s4.cfg := by rw [← hs4]; exact q3
  have e4 : restOf s4 = net1.step adderEnv dev (.arrive 0 (wireCmd askHandler)) := by
    have h1 : (Net.init [devA] adderWorld).run adderEnv dev _ = restOf s3 := C79_quiet adderEnv dev [devA] adderWorld _ s3 R3 (none q3)
    have h2 : (Net.init [devA] adderWorld).run adderEnv dev _ = restOf s4 := C79_quiet adderEnv dev [devA] adderWorld _ s4 R4 (none q4)
    rw [Net.run] at h1
    rw [List.filterMap_append, Net.run, List.foldl_append, h1, e3] at h2
    exact h2.symm
  obtain ⟨l5, s5, r5, q5, e5, v5, w5⟩ := calm_next_only R4 q4 (.iterate 0 .full)
  rw [e4] at e5
  have e5 : restOf s5 = net2 := e5
  have R5 := R4.trans r5
  have g5 : s5.got 0 = reply1 ++ reply2 := by rw [rest R5 q5, e5]; exact host2_facts.2.2.2.2.2.1
  -- with handler code
  obtain ⟨W3, b3, hW3, hin3, hap3⟩ := lift_from (code := adder) (s0 :=
    { fine := { cfg := welcome.cfg, inside := fun _ => .none, app := fun _ => .none }
      buf := welcome.buf, ended := welcome.ended, got := welcome.got }) adder_behaves adder_returns R2 (fun _ => rfl) (fun _ => rfl)
    r3 (fun f cr hf => by cases v3 _ hf _ rfl)
  obtain ⟨W5, b5, hW5, hin5, hap5⟩ := lift_from (code := adder) (s0 :=
    { W3 with buf := s4.buf }) adder_behaves adder_returns (ls0 := _) (by
      have : ({ W3 with buf := s4.buf } : Whole adder).tcp = s4 := by
        rw [← hs4, ← hW3]; rfl
      rw [this]; exact R4) hin3 hap3
    (a := s5) (by
      have : ({ W3 with buf := s4.buf } : Whole adder).tcp = s4 := by
        rw [← hs4, ← hW3]; rfl
      rw [this]; exact r5) (fun f cr hf => by cases v5 _ hf _ rfl)
  -- in a process
  let M0 : Machine adder := Machine.init adder [devA] adderWorld
  let M1 : Machine adder := { M0 with calls := upd M0.calls 0 (some (.listening [])) }
  let M2 : Machine adder := { M1 with calls := upd M1.calls 0 (some (.listening [0])), front := upd M1.front 0 (.waiting [] .none) }
  let M3 : Machine adder := { M2 with front := upd M2.front 0 (.waiting (wireCmd (.reqImport 0 busA)) .none) }
  let M4 : Machine adder := { whole := { fine := { cfg := welcome.cfg, inside := fun _ => .none, app := fun _ => .none }
                                         buf := welcome.buf, ended := welcome.ended, got := welcome.got }
                              calls := upd M3.calls 0 (some (.listening []))
                              front := upd M3.front 0 .accepted }
  have t0 : Machine.Step adder adderEnv dev M0 (some (.serve 0 true)) M1 := .serve _ 0 true rfl
  have t1 : Machine.Step adder adderEnv dev M1 (some (.dial 0 0)) M2 := .dial _ 0 0 [] rfl rfl
  have t2 : Machine.Step adder adderEnv dev M2 (some (.early 0 (wireCmd (.reqImport 0 busA)))) M3 := .early _ 0 [] _ rfl
  have t3 : Machine.Step adder adderEnv dev M3 (some (.accept 0 0 (wireCmd (.reqImport 0 busA)) .none)) M4 := by
    have := Machine.Step.accept (code := adder) (env := adderEnv) (p := dev) M3 0 0 [] (wireCmd (.reqImport 0 busA)) .none rfl rfl
    have h : upd M3.whole.ended 0 .none = fun _ => .none := by
      funext i; by_cases h : i = 0
      · subst h; rfl
      · rw [upd_ne _ _ h]; rfl
    rw [h] at this
    exact this
  have t4 : Machine.Step adder adderEnv dev { M4 with whole := W3 } (some (.inner (.arrive 0 (wireCmd askHandler))))
      { M4 with whole := { W3 with buf := s4.buf } } := by
    refine .inner { M4 with whole := W3 } (some (.arrive 0 (wireCmd askHandler))) _ ?_ (fun c i h => by cases h)
    have := Whole.Step.socket (code := adder) (env := adderEnv) (p := dev) W3 (.arrive 0 (wireCmd askHandler)) s4 (by rw [hW3]; exact r4)
      (fun l h => by cases h) (fun l t h => by cases h)
    rw [← hs4] at this ⊢
    have q1 := congrArg Tcp.cfg hW3
    have q2 := congrArg Tcp.ended hW3
    have q3 := congrArg Tcp.got hW3
    dsimp only at this ⊢
    rw [← q1, ← q2, ← q3] at this
    exact this
  obtain ⟨N5, E5, p5, k5, z5, y5⟩ := MachineExec.after (s0 := { M4 with whole := { W3 with buf := s4.buf } }) b5
    (fun c i h => by cases v5 _ h _ rfl) (.rest adder adderEnv dev _)
  obtain ⟨N3, E3, p3, k3, z3, y3⟩ := MachineExec.after (s0 := M4) b3 (fun c i h => by cases v3 _ h _ rfl) (E5.cons t4)
  let e := (((E3.cons t3).cons t2).cons t1).cons t0
  let T := N3 + 4
  let U := N3 + 5 + N5
  have late : ∀ m, U ≤ m → e.state m = { M4 with whole := W5 } := by
    intro m hm
    obtain ⟨i, rfl⟩ := Nat.exists_eq_add_of_le hm
    rw [show U + i = (N3 + ((N5 + i) + 1)) + 4 from by simp only [U]; omega]
    show E3.state (N3 + ((N5 + i) + 1)) = _
    rw [p3]
    show E5.state (N5 + i) = _
    rw [p5]; rfl
  have atT : e.state T = { M4 with whole := W3 } := by
    show E3.state N3 = _
    have := p3 0
    rw [Nat.add_zero] at this
    rw [this]; rfl
  have lab3 : ∀ i, 4 ≤ i → i < T → ∀ lb, e.label i = some lb → ∃ l ∈ l3, lb = .inner l := by
    intro i h1 h2 lb h
    obtain ⟨j, rfl⟩ := Nat.exists_eq_add_of_le h1
    rw [Nat.add_comm 4 j] at h
    exact z3 j (by simp only [T] at h2; omega) lb h
  have labT : e.label T = some (.inner (.arrive 0 (wireCmd askHandler))) := by
    show E3.label N3 = _
    have := k3 0
    rw [Nat.add_zero] at this
    rw [this]; rfl
  have lab5 : ∀ i, T < i → ∀ lb, e.label i = some lb → ∃ l ∈ l5, lb = .inner l := by
    intro i h1 lb h
    obtain ⟨j, rfl⟩ := Nat.exists_eq_add_of_le h1
    rw [show T.succ + j = (N3 + (j + 1)) + 4 from by simp only [T]; omega] at h
    change E3.label (N3 + (j + 1)) = some lb at h
    rw [k3] at h
    change E5.label j = some lb at h
    by_cases hj : j < N5
    · exact z5 j hj lb h
    · obtain ⟨i, rfl⟩ := Nat.exists_eq_add_of_le (Nat.not_lt.1 hj)
      rw [k5] at h; cases h
  have front : ∀ n, 4 ≤ n → (e.state n).front 0 = .accepted := fun n hn =>
    accepted_stays (n := 4) adder_behaves (by
      show (E3.state 0).front 0 = _
      rw [E3.init]; rfl) hn
  -- what arrives
  have quiet3 : ∀ i, 4 ≤ i → i < T → arrivesAt 0 (e.label i) = [] := by
    intro i h1 h2
    cases h : e.label i with
    | none => rfl
    | some lb =>
      obtain ⟨l, hl, rfl⟩ := lab3 i h1 h2 lb h
      cases l with
      | arrive c bs => cases v3 _ hl _ rfl
      | _ => rfl
  have quiet5 : ∀ i, T < i → arrivesAt 0 (e.label i) = [] := by
    intro i h1
    cases h : e.label i with
    | none => rfl
    | some lb =>
      obtain ⟨l, hl, rfl⟩ := lab5 i h1 lb h
      cases l with
      | arrive c bs => cases v5 _ hl _ rfl
      | _ => rfl
  have a4 : arrivedBy e.label 0 4 = wireCmd (.reqImport 0 busA) := rfl
  have aT : arrivedBy e.label 0 T = wireCmd (.reqImport 0 busA) := by
    rw [show T = 4 + N3 from by simp only [T]; omega, arrivedBy_still N3 (fun i h1 h2 => quiet3 i h1 (by simp only [T]; omega)), a4]
  have aU : ∀ n, T < n → arrivedBy e.label 0 n = wireCmd (.reqImport 0 busA) ++ wireCmd askHandler := by
    intro n hn
    obtain ⟨j, rfl⟩ := Nat.exists_eq_add_of_le hn
    rw [arrivedBy_still j (fun i h1 _ => quiet5 i (by omega)), arrivedBy, aT, labT]; rfl
  have wires : host1.said.flatMap wireCmd = wireCmd (.reqImport 0 busA) ++ wireCmd askHandler := by
    rw [host1_facts.2.2.2.2.1]; simp
  have wires2 : host2.said.flatMap wireCmd = wireCmd (.reqImport 0 busA) ++ wireCmd askHandler := by
    rw [host2_facts.1]; simp
  have wires0 : host0.said.flatMap wireCmd = wireCmd (.reqImport 0 busA) := by
    simp [host0, Driver.start]
  let d : Nat → Driver := fun n => if n ≤ T then host0 else if n ≤ U then host1 else host2
  have d0 : ∀ n, n ≤ T → d n = host0 := fun n h => if_pos h
  have d1 : ∀ n, T < n → n ≤ U → d n = host1 := fun n h1 h2 => (if_neg (by omega)).trans (if_pos h2)
  have hTU : T < U := by simp only [T, U]; omega
  have d2 : ∀ n, U < n → d n = host2 := fun n h => (if_neg (by omega)).trans (if_neg (by omega))
  have gU : ∀ n, U ≤ n → (e.state n).whole.got 0 = reply1 ++ reply2 := by
    intro n hn
    rw [late n hn]
    exact (congrArg (fun t : Tcp _ => t.got 0) hW5).trans g5
  have gT : (e.state T).whole.got 0 = reply1 := by
    rw [atT]
    exact (congrArg (fun t : Tcp _ => t.got 0) hW3).trans g3
  have gmono : ∀ n, (e.state n).whole.got 0 <+: (e.state (n + 1)).whole.got 0 := by
    intro n
    exact machine_got_mono e n 0
  have other : ∀ c, c ≠ 0 → W5.fine.cfg.conns c = .none := by
    intro c hc
    have h1 : (restOf s5).sys.conns c = .none := by
      rw [e5, net2, net_iterate_other hc]
      have : (net1.step adderEnv dev (.arrive 0 (wireCmd askHandler))).sys.conns c = net1.sys.conns c := by
        simp only [Net.step]
        split
        · exact setConn_ne hc
        · rfl
      rw [this, net1, net_iterate_other hc]
      simp [restOf, welcome, setConn, hc]
    rw [← hW5] at h1
    cases h : W5.fine.cfg.conns c with
    | none => rfl
    | some x => simp [restOf, Whole.tcp, h] at h1
  have own : ∀ x, W5.fine.cfg.conns 0 = some x → x.status = .running ∧ x.input.bytes ++ W5.buf 0 = [] := by
    intro x hx
    have h1 := host2_facts.2.2.2.2.2.2
    rw [← e5, ← hW5] at h1
    simp only [restOf, Whole.tcp, hx, Option.map_some, Option.some.injEq, Prod.mk.injEq] at h1
    exact h1
  have still : W5.ended 0 = .none := by
    have : (restOf s5).ended 0 = .none := by rw [e5]; decide +kernel
    rw [← hW5] at this
    exact this
  refine ⟨e, d, T, U, ?_, ?_, ?_, ?_, by simp only [T]; omega, hTU, front, ⟨rfl, fun m k => ?_⟩, d0, d1, d2⟩
  · refine e.rest_fair U late (fun t => ?_) hin5 hap5 (fun c x hx => ?_) (fun c x hx hr => ?_) (fun k c q h => ?_)
    · have := none q5 t
      rw [← hW5] at this; exact this
    · by_cases h : c = 0
      · subst h; exact (List.append_eq_nil_iff.1 (own x hx).2).2
      · have := other c h
        rw [show W5.fine.cfg.conns c = some x from hx] at this; cases this
    · by_cases h : c = 0
      · subst h
        refine ⟨?_, still⟩
        rw [(List.append_eq_nil_iff.1 (own x hx).2).1]
        rfl
      · have := other c h
        rw [show W5.fine.cfg.conns c = some x from hx] at this; cases this
    · by_cases h0 : k = 0
      · subst h0; cases h
      · simp [M4, M3, M2, M1, M0, upd_ne _ _ h0, Machine.init] at h
  · refine no_removals adder_behaves e (fun n t i hl => ?_)
    by_cases h1 : n < 4
    · match n, h1 with
      | 0, _ => cases hl
      | 1, _ => cases hl
      | 2, _ => cases hl
      | 3, _ => cases hl
    · rcases Nat.lt_trichotomy n T with h | h | h
      · obtain ⟨l, h3, h4⟩ := lab3 n (by omega) h _ hl
        cases h4
        cases w3 _ _ h3
      · rw [h, labT] at hl; cases hl
      · obtain ⟨l, h3, h4⟩ := lab5 n h _ hl
        cases h4
        cases w5 _ _ h3
  · refine ⟨rfl, rfl, fun n => ?_, fun n => ?_, fun n => ?_⟩
    · rcases Nat.lt_trichotomy n T with h | h | h
      · rw [d0 n (by omega), d0 (n + 1) (by omega)]; exact .refl _
      · rw [d0 n (by omega), d1 (n + 1) (by omega) (by omega)]; exact host_moves1
      · rcases Nat.lt_trichotomy n U with h' | h' | h'
        · rw [d1 n (by omega) (by omega), d1 (n + 1) (by omega) (by omega)]; exact .refl _
        · rw [d1 n (by omega) (by omega), d2 (n + 1) (by omega)]; exact host_moves2
        · rw [d2 n (by omega), d2 (n + 1) (by omega)]; exact .refl _
    · by_cases h : n < T
      · rw [d0 (n + 1) (by omega)]; exact List.nil_prefix
      · by_cases h' : n < U
        · rw [d1 (n + 1) (by omega) (by omega), host1_facts.2.2.2.2.2.1, ← gT]
          obtain ⟨j, rfl⟩ := Nat.exists_eq_add_of_le (Nat.not_lt.1 h)
          clear h h'
          induction j with
          | zero => exact List.prefix_refl _
          | succ j ih => exact ih.trans (gmono _)
        · rw [d2 (n + 1) (by omega), host2_facts.2.1, gU n (by omega)]
          exact List.prefix_refl _
    · by_cases h : n ≤ T
      · rw [d0 n h, wires0, ← aT]
        exact arrivedBy_mono h
      · rw [aU n (by omega)]
        by_cases h' : n ≤ U
        · rw [d1 n (by omega) h', wires]; exact List.prefix_refl _
        · rw [d2 n (by omega), wires2]; exact List.prefix_refl _
  · refine ⟨fun n => ⟨n + T + 1, by omega, ?_⟩, fun n => ⟨n + U + 1, by omega, ?_⟩⟩
    · rw [aU _ (by omega)]
      by_cases h : n ≤ T
      · rw [d0 n h, wires0]; exact List.prefix_append _ _
      · by_cases h' : n ≤ U
        · rw [d1 n (by omega) h', wires]; exact List.prefix_refl _
        · rw [d2 n (by omega), wires2]; exact List.prefix_refl _
    · rw [d2 _ (by omega), host2_facts.2.1, ← gU (n + U) (by omega)]
      generalize U = U
      induction U with
      | zero => exact List.prefix_refl _
      | succ j ih => exact ih.trans (gmono _)
  · intro hl
    by_cases h1 : m < 4
    · match m, h1 with
      | 0, _ => cases hl
      | 1, _ => cases hl
      | 2, _ => cases hl
      | 3, _ => cases hl
    · rcases Nat.lt_trichotomy m T with h | h | h
      · obtain ⟨l, h3, h4⟩ := lab3 m (by omega) h _ hl
        cases h4
      · rw [h, labT] at hl; cases hl
      · obtain ⟨l, h3, h4⟩ := lab5 m h _ hl
        cases h4

end Usbip
