import Verif.Lemmas.Unread
import Verif.Props.Silence
/-! C108: a client that does not read its reply, and somebody who wants to import. -/

namespace Usbip
open Spec Samples

/-- C108, nobody is served any more: a command's reply has not been received to the end by its client (program `u`, client
`c0`), and a program `t` waits to write the table of used devices (an import; the giving back of a device).  While `c0` does not
receive anything and neither of the two tasks is dropped, whatever happens: both stay where they are, the client of `t`
receives nothing, and no client whose connection was between two commands, or is made later, receives a single byte; no
command of such a client gets the lock all commands begin with. -/
theorem C108_freeze {τ} (code : Code τ) (env : Env (HandlerId → τ)) (hb : Behaves code env) (p : Profile)
    (devices : List Device) (w : World (HandlerId → τ)) (ls ls' : List (TcpLabel (HandlerId → τ))) (s s' : Whole code)
    (h : Whole.Reach code env p (Whole.init code devices w) ls s)
    (u c0 t : Nat) (g f : Flight (HandlerId → τ)) (k0 k : Task (HandlerId → τ)) (y : Conn)
    (hg : s.fine.cfg.flights u = some g) (ho : g.owner = some c0) (hgk : g.code = .send k0) (hy : k0.final = some y)
    (hne : s.got c0 ≠ y.output)
    (ht : s.fine.cfg.flights t = some f) (hw : f.waiting = true) (hk : f.code = .lock .used .w k)
    (h' : Whole.Reach code env p s ls' s') (hr : ∀ b bs, .piece c0 (b :: bs) ∉ ls')
    (hd : ∀ o, .server (.dropped u o) ∉ ls' ∧ .server (.dropped t o) ∉ ls') :
    s'.fine.cfg.flights u = some g ∧ s'.fine.cfg.flights t = some f ∧
    (∀ c, f.owner = some c → s'.got c = s.got c) ∧
    ∀ c, s.fine.cfg.idle c →
      s'.got c = s.got c ∧
      (s.fine.cfg.conns c = none → s'.got c = []) ∧
      ∀ v r, s'.fine.cfg.flights v = some r → r.owner = some c → r.held .used = none := by
  obtain ⟨_, w0, _, hr0⟩ := whole_reach hb h
  obtain ⟨_, _, hlab⟩ := unread_path hb h hg ho hgk hy hne h' (fun o => (hd o).1) hr
  obtain ⟨h1, h2, h3, h4⟩ := whole_frozen hb h hg ((TInv.reach hr0).sends_locked (f := g) hg hgk) ht hw hk h' hlab
    (fun o => (hd o).2)
  refine ⟨h1, h2, fun c hc => h3 t f c (.inr rfl) ht hc (fun k' e => by rw [hk] at e; cases e), fun c hc => ?_⟩
  obtain ⟨_, hgot, hh⟩ := h4 c hc
  exact ⟨hgot, fun hx => hgot.trans ((TInv.reach hr0).fresh c hx).2.2, hh⟩

/-- C108 for the reply to an import (`hin`: the command that is being answered, whether the device was there or not): while
its client does not receive anything, no client receives anything. -/
theorem C108_import {τ} (code : Code τ) (env : Env (HandlerId → τ)) (hb : Behaves code env) (p : Profile)
    (devices : List Device) (w : World (HandlerId → τ)) (ls ls' : List (TcpLabel (HandlerId → τ))) (s s' : Whole code)
    (h : Whole.Reach code env p (Whole.init code devices w) ls s)
    (u c0 : Nat) (g : Flight (HandlerId → τ)) (k0 : Task (HandlerId → τ)) (y : Conn)
    (hg : s.fine.cfg.flights u = some g) (ho : g.owner = some c0) (hgk : g.code = .send k0) (hy : k0.final = some y)
    (hne : s.got c0 ≠ y.output) (x : Conn) (hx : s.fine.cfg.conns c0 = some x) (st : UInt32) (busid : Bytes) (more : Arrived)
    (hin : (readCommand p : Rd Arrived Cmd) ⟨x.input.bytes⟩ = .ok (.reqImport st busid, more))
    (h' : Whole.Reach code env p s ls' s') (hr : ∀ b bs, .piece c0 (b :: bs) ∉ ls') (hd : ∀ o, .server (.dropped u o) ∉ ls') :
    s'.fine.cfg.flights u = some g ∧ ∀ c, s'.got c = s.got c := by
  obtain ⟨_, w0, _, hr0⟩ := whole_reach hb h
  have hw := (TInv.reach hr0).import_locks (f := g) hg ho hx hin hgk
  obtain ⟨_, hc0, hlab⟩ := unread_path hb h hg ho hgk hy hne h' hd hr
  obtain ⟨h1, h2⟩ := writer_mute hb h hg hw h' hlab
  refine ⟨h1, fun c => ?_⟩
  by_cases e : c = c0
  · subst e; exact hc0
  · exact h2 c fun e' => e (by rw [ho] at e'; exact (Option.some.inj e').symm)

/-- C108, the end of all service: client `c0` receives nothing from time `n` on although there is something left of its reply,
and an import request has arrived on a connection that is between two commands.  If tasks that can run are run, what has
arrived is read and no task is dropped, there is a time from which on no client receives a byte, whoever it is, whenever it
connects, and whatever it sends. -/
theorem C108_silence {τ} (code : Code τ) (env : Env (HandlerId → τ)) (hb : Behaves code env) (p : Profile)
    (devices : List Device) (w : World (HandlerId → τ)) (e : WholeExec code env p (Whole.init code devices w))
    (hs : e.Scheduled) (n u c0 c : Nat) (g : Flight (HandlerId → τ)) (k0 : Task (HandlerId → τ)) (y : Conn)
    (hg : (e.state n).fine.cfg.flights u = some g) (ho : g.owner = some c0) (hgk : g.code = .send k0)
    (hy : k0.final = some y) (hne : (e.state n).got c0 ≠ y.output)
    (hread : ∀ m, n ≤ m → (e.state m).got c0 = (e.state n).got c0)
    (x : Conn) (hx : (e.state n).fine.cfg.conns c = some x) (hr : x.status = .running) (hc : (e.state n).fine.cfg.idle c)
    (st : UInt32) (busid : Bytes) (more : Arrived)
    (hin : (readCommand p : Rd Arrived Cmd) ⟨x.input.bytes ++ (e.state n).buf c⟩ = .ok (.reqImport st busid, more))
    (hu : e.Undisturbed n c) :
    ∃ M, n ≤ M ∧ ∀ m c', M ≤ m → (e.state m).got c' = (e.state M).got c' := by
  obtain ⟨e', B⟩ := exists_behind hb e
  have unsent : ∀ m b bs, n ≤ m → e.label m ≠ some (.piece c0 (b :: bs)) := by
    intro m b bs hm hl
    rcases got_step (e'.step m) c0 with ⟨_, h⟩ | ⟨_, _, _, _, bs', h1, _, _, _, _, _, h⟩
    · exact h b bs (by rw [B.label, hl]; rfl)
    · have h2 : (TcpLabel.piece c0 (b :: bs) : TcpLabel (HandlerId → τ)) = TcpLabel.piece c0 bs' := by rw [← h1, B.label, hl]; rfl
      cases h2
      rw [B.got_eq, B.got_eq, hread m hm, hread (m + 1) (by omega)] at h
      exact List.cons_ne_nil b bs (List.append_cancel_left (h.symm.trans (List.append_nil _).symm))
  obtain ⟨ls0, r0⟩ := e.reached n
  obtain ⟨_, w0, _, hr0⟩ := whole_reach hb r0
  have path : ∀ m m', n ≤ m → m ≤ m' → (e.state m).fine.cfg.flights u = some g → ∃ ls,
      Whole.Reach code env p (e.state m) ls (e.state m') ∧ (e.state m').fine.cfg.flights u = some g ∧
      (∀ b, .server b ∈ ls → prog b ≠ some u) ∧ ∀ t o, .server (.dropped t o) ∉ ls := by
    intro m m' hm hm' hg
    obtain ⟨j, rfl⟩ := Nat.exists_eq_add_of_le hm'
    obtain ⟨ls0, r0⟩ := e.reached m
    obtain ⟨ls, r, hl⟩ := e.reaches m j
    have hd : ∀ t o, .server (.dropped t o) ∉ ls := fun t o h => by
      obtain ⟨m1, hm1, h⟩ := hl _ h
      exact (hu m1 (by omega)).1 t o h
    obtain ⟨h1, _, h2⟩ := unread_path hb r0 hg ho hgk hy (by rw [hread m hm]; exact hne) r (hd u) (fun b bs h => by
      obtain ⟨m1, hm1, h⟩ := hl _ h
      exact unsent m1 b bs (by omega) h)
    exact ⟨ls, r, h1, h2, hd⟩
  have there : ∀ m, n ≤ m → (e.state m).fine.cfg.flights u = some g := fun m hm => by
    obtain ⟨_, _, h, _⟩ := path n m (Nat.le_refl _) hm hg
    exact h
  have hused := (TInv.reach hr0).sends_locked (f := g) hg hgk
  cases hm : g.held .used with
  | none => exact absurd hm hused
  | some md =>
    cases md with
    | w =>
      refine ⟨n, Nat.le_refl _, fun m c' hm' => ?_⟩
      by_cases ec : c' = c0
      · subst ec; exact hread m hm'
      obtain ⟨ls, r, _, hl, _⟩ := path n m (Nat.le_refl _) hm' hg
      exact (writer_mute hb r0 hg hm r hl).2 c' fun e' => ec (by rw [ho] at e'; exact (Option.some.inj e').symm)
    | r =>
      obtain ⟨m0, hm0, t, f, k, hf, hw, hk⟩ := B.import_comes hs.tasks hs.reads hs.loops (u := u)
        (fun m hm' => ⟨g, there m hm', hm⟩) hx hr hc hin (fun m hm => (hu m hm).2) (fun m t o hm => (hu m hm).1 t o)
      have from' : ∀ m m', n ≤ m → m ≤ m' → (e.state m).fine.cfg.flights t = some f →
          (e.state m').fine.cfg.flights t = some f ∧
          ∀ c', (e.state m).fine.cfg.idle c' → (e.state m').got c' = (e.state m).got c' := by
        intro m m' hm1 hm2 hf
        obtain ⟨ls1, r1⟩ := e.reached m
        obtain ⟨ls, r, _, hl, hd⟩ := path m m' hm1 hm2 (there m hm1)
        obtain ⟨_, h4, _, h5⟩ := whole_frozen hb r1 (there m hm1) hused hf hw hk r hl (hd t)
        exact ⟨h4, fun c' hc' => (h5 c' hc').2.1⟩
      obtain ⟨M, hM, h⟩ := e'.silence (n := m0) (fun c' m m' hm hm' hi' => by
        rw [B.got_eq, B.got_eq]
        exact (from' m m' (by omega) hm' (from' m0 m hm0 hm hf).1).2 c' (B.idle_iff.1 hi'))
      refine ⟨M, by omega, fun m c' hm => ?_⟩
      have := h m c' hm
      rwa [B.got_eq, B.got_eq] at this

/-- A command whose reply is not received does not get on. -/
theorem unread_acts {τ} {code : Code τ} {env : Env (HandlerId → τ)} (hb : Behaves code env) {p : Profile}
    {devices : List Device} {w : World (HandlerId → τ)} {ls0 : List (TcpLabel (HandlerId → τ))} {s s' : Whole code}
    (h0 : Whole.Reach code env p (Whole.init code devices w) ls0 s) {lb : Option (TcpLabel (HandlerId → τ))} {u c : Nat}
    {g : Flight (HandlerId → τ)} {k : Task (HandlerId → τ)} {y : Conn} (hg : s.fine.cfg.flights u = some g)
    (ho : g.owner = some c) (hk : g.code = .send k) (hy : k.final = some y) (hne : s.got c ≠ y.output)
    (hin : s.fine.inside u = none) (st : Whole.Step code env p s lb s') : ¬ Acts u s lb s' := by
  rintro (⟨l, rfl, ha, hp⟩ | ⟨_, h⟩ | ⟨i, h, _⟩)
  · obtain ⟨hI, w1, hA, hr1⟩ := whole_reach hb h0
    have hC : Covered env p s.fine.cfg := fun t f g k ht hk => tcp_covered hr1 t f g k ht hk
    obtain ⟨_, w2, _, hst⟩ := whole_step hb hC hI st hA
    have hst : Tcp.Step env p (s.tcp.withWorld w1) (.server l) (s'.tcp.withWorld w2) := hst
    exact (tcp_unread hst (u := u) (c := c) (g := g) hg ho hk hy hne (fun o e => by cases e; exact ha)).2 l rfl hp
  · refine h ?_
    cases st with
    | socket => exact hin
    | handler lb f st hl =>
      cases st with
      | enter t' f' g' k' c cont ht' hk' =>
        by_cases e : u = t'
        · subst e
          rw [hg] at ht'; cases ht'
          rw [hk] at hk'; cases hk'
        · exact (upd_ne _ _ e).trans hin
      | work t' i ht' =>
        by_cases e : u = t'
        · subst e; rw [hin] at ht'; cases ht'
        · exact (upd_ne _ _ e).trans hin
      | leave t' f i r ht' =>
        by_cases e : u = t'
        · subst e; rw [hin] at ht'; cases ht'
        · exact (upd_ne _ _ e).trans hin
      | _ => exact hin
  · rw [hin] at h; cases h

/-- Client 0 has sent an unlink request, which has been handled, and has received nothing; client 1 has asked for "1-1". -/
theorem unread_case (t : Nat) : ∃ ls s g k y, Whole.Reach adder adderEnv dev (Whole.init adder [devA] adderWorld) ls s ∧
    s.fine.cfg.flights t = some g ∧ g.owner = some 0 ∧ g.code = .send k ∧ k.final = some y ∧ s.got 0 = [] ∧ y.output ≠ [] ∧
    (∀ t', t' ≠ t → s.fine.cfg.flights t' = none) ∧ g.held .used = some .r ∧ s.fine.cfg.queue .used = [] ∧
    s.fine.cfg.conns 1 = some (Conn.new ⟨[], .unexpectedEof⟩) ∧ s.buf 1 = wireCmd (.reqImport 0 busA) ∧
    (∀ t, s.fine.inside t = none) ∧ ∀ c, 2 ≤ c → s.fine.cfg.conns c = none := by
  have r1 := Tcp.Reach.tail (.refl (s0 := Tcp.init [devA] adderWorld) (env := adderEnv) (p := dev)) (.connect _ 0 rfl)
  have r2 := r1.tail (.connect _ 1 rfl)
  have r3 := r2.tail (.arrive _ 0 (wireCmd cmdUnlink) (by simp [Tcp.init, setConn]) rfl)
  have r4 := r3.tail (.arrive _ 1 (wireCmd (.reqImport 0 busA)) (by simp [Tcp.init, setConn]) rfl)
  have r5 := r4.tail (.take _ 0 (Conn.new ⟨[], .unexpectedEof⟩) (wireCmd cmdUnlink) [] (by simp [Tcp.init, setConn])
    (fun v g hv => by cases hv) rfl)
  have r6 := r5.tail (.iterate _ t 0 .full (Conn.new unlinkStream) rfl (by simp [setConn]; rfl) rfl
    (fun v g hv => by cases hv) (by decide +kernel))
  have hcode : iterTask adderEnv dev (Conn.new unlinkStream) .full = unlinkTask dev (Conn.new unlinkStream) ⟨[], .unexpectedEof⟩
      cmdUnlink ⟨2, 9, 65538, 0, 0⟩ .full := by
    unfold iterTask
    rw [show (Conn.new unlinkStream).input = unlinkStream from rfl, unlinkStream_read]
    rfl
  rw [hcode] at r6
  have r7 := r6.tail (.other _ _ _ (.request _ t _ _ _ _ (upd_self _ _ _) rfl rfl) (fun _ _ => nofun) (fun _ _ _ => nofun)
    (fun t' f k e hf hk => by
      cases e
      have : some _ = some f := (upd_self _ _ _).symm.trans hf
      cases this; cases hk))
  have r8 := r7.tail (.other _ _ _ (.grant _ t _ _ _ _ [] (upd_self _ _ _) rfl rfl rfl (fun u g h hu hg => by
      by_cases e : u = t
      · subst e
        have : some _ = some g := (upd_self _ _ _).symm.trans hu
        cases this; cases hg
      · have : (none : Option (Flight (HandlerId → Nat))) = some g := by simpa [Tcp.init, Cfg.init, Cfg.put, upd, e] using hu
        cases this)) (fun _ _ => nofun) (fun _ _ _ => nofun)
    (fun t' f k e hf hk => by
      cases e
      have : some _ = some f := (upd_self _ _ _).symm.trans hf
      cases this; cases hk))
  have r9 := r8.tail (.other _ _ _ (.commit _ t _ _ _ (upd_self _ _ _) rfl) (fun _ _ => nofun) (fun _ _ _ => nofun)
    (fun t' f k e => by cases e))
  obtain ⟨S, q, hS, hin, _⟩ := lift_all' adder_behaves r9 (.inl adder_returns) (fun f cr hf => by simp at hf)
  refine ⟨_, S, _, _, _, q, (congrArg (fun a : Tcp (HandlerId → Nat) => a.cfg.flights t) hS).trans (upd_self _ _ _), rfl, rfl, rfl,
    (congrArg (fun a : Tcp (HandlerId → Nat) => a.got 0) hS).trans rfl, by decide +kernel, fun t' ht => ?_, rfl, ?_, ?_, ?_, hin, fun c hc => ?_⟩
  · refine (congrArg (fun a : Tcp (HandlerId → Nat) => a.cfg.flights t') hS).trans ?_
    simp [Tcp.init, Cfg.init, Cfg.put, upd, ht]
  · exact (congrArg (fun a : Tcp (HandlerId → Nat) => a.cfg.queue .used) hS).trans rfl
  · exact (congrArg (fun a : Tcp (HandlerId → Nat) => a.cfg.conns 1) hS).trans rfl
  · exact (congrArg (fun a : Tcp (HandlerId → Nat) => a.buf 1) hS).trans rfl
  · refine (congrArg (fun a : Tcp (HandlerId → Nat) => a.cfg.conns c) hS).trans ?_
    have h0 : c ≠ 0 := by omega
    have h1 : c ≠ 1 := by omega
    simp [Tcp.init, Cfg.init, Cfg.put, setConn, h0, h1]

/-- A case of `C108_silence` (and, with what follows, of `C108_freeze`): client 0 does not read the reply to an unlink, client 1 has
asked for "1-1", which is available. -/
theorem C108_silent : ∃ (e : WholeExec adder adderEnv dev (Whole.init adder [devA] adderWorld)) (n : Nat)
    (g : Flight (HandlerId → Nat)) (k : Task (HandlerId → Nat)) (y x : Conn) (more : Arrived), e.Scheduled ∧
    (e.state n).fine.cfg.flights 0 = some g ∧ g.owner = some 0 ∧ g.code = .send k ∧ k.final = some y ∧
    (e.state n).got 0 ≠ y.output ∧ (∀ m, n ≤ m → (e.state m).got 0 = (e.state n).got 0) ∧
    (e.state n).fine.cfg.conns 1 = some x ∧ x.status = .running ∧ (e.state n).fine.cfg.idle 1 ∧
    (readCommand dev : Rd Arrived Cmd) ⟨x.input.bytes ++ (e.state n).buf 1⟩ = .ok (.reqImport 0 busA, more) ∧
    e.Undisturbed n 1 := by
  have hb := adder_behaves
  obtain ⟨ls2, s2, g, k0, y, r2, hg, ho0, hgk, hy, hgot, hout, hno, hheld, hq, hc2, hb2, hin, hcn⟩ := unread_case 0
  have idle2 : s2.fine.cfg.idle 1 := fun v f hv h1 => by
    by_cases e : v = 0
    · subst e; rw [hg] at hv; cases hv; rw [ho0] at h1; cases h1
    · rw [hno v e] at hv; cases hv
  have hnw : ∀ u f, s2.fine.cfg.flights u = some f → f.held .used ≠ some .w := fun v f hv => by
    by_cases e : v = 0
    · subst e; rw [hg] at hv; cases hv; rw [hheld]; nofun
    · rw [hno v e] at hv; cases hv
  have ne2 : s2.got 0 ≠ y.output := by rw [hgot]; exact hout.symm
  obtain ⟨ls5, s5, f, k, r5, hf, hw, hk, ho, hoth, hins, hcn5, hg5, hl5, _⟩ := asked_waits (.refl (s0 := s2) (code := adder)
    (env := adderEnv) (p := dev)) 1 1 busA rfl (hno 1 (by decide)) (hin 1) hc2 idle2 hb2 hq hnw
  rw [List.nil_append] at r5
  have f5 : s5.fine.cfg.flights 0 = some g := by rw [hoth 0 (by decide)]; exact hg
  have n5 : ∀ t, 2 ≤ t → s5.fine.cfg.flights t = none := fun t ht => by
    rw [hoth t (by omega)]; exact hno t (by omega)
  have c5 : ∀ c, 2 ≤ c → s5.fine.cfg.conns c = none := fun c hc' => by
    rw [hcn5 c (by omega)]; exact hcn c hc'
  have o5 : ∀ t, s5.fine.inside t = none := fun t => by rw [hins]; exact hin t
  have busy : ∀ c, s5.fine.cfg.conns c ≠ none → ¬ s5.fine.cfg.idle c := by
    intro c hc' hid
    by_cases e0 : c = 0
    · subst e0; exact hid 0 g f5 ho0
    by_cases e1 : c = 1
    · subst e1; exact hid 1 f hf ho
    exact hc' (c5 c (by omega))
  obtain ⟨N1, e1, hs1, hlb1, hpre1⟩ := WholeExec.after r5 (WholeExec.rest adder adderEnv dev s5)
  obtain ⟨N0, e0, hs0, hlb0, hpre0⟩ := WholeExec.after r2 e1
  have st5 : ∀ m, N0 + N1 ≤ m → e0.state m = s5 := by
    intro m hm
    obtain ⟨j, rfl⟩ := Nat.exists_eq_add_of_le hm
    rw [Nat.add_assoc, hs0, hs1]; rfl
  have hn0 : e0.state N0 = s2 := by rw [← Nat.add_zero N0, hs0, e1.init]
  have lab : ∀ m, N0 ≤ m → e0.label m = none ∨ ∃ lb ∈ ls5, e0.label m = some lb := by
    intro m hm
    obtain ⟨j, rfl⟩ := Nat.exists_eq_add_of_le hm
    rw [hlb0]
    by_cases hj : j < N1
    · cases hl : e1.label j with
      | none => exact .inl rfl
      | some lb => exact .inr ⟨lb, hpre1 j hj lb hl, rfl⟩
    · obtain ⟨d, rfl⟩ := Nat.exists_eq_add_of_le (Nat.le_of_not_lt hj)
      rw [hlb1]
      exact .inl rfl
  have labs : ∀ m, N0 ≤ m → ∀ lb, e0.label m = some lb →
      lb = .take 1 ∨ lb = .server (.start 1 (.iterate 1 .full)) ∨ lb = .server (.inner 1) := by
    intro m hm lb hl
    rcases lab m hm with h | ⟨lb', h, h'⟩
    · rw [hl] at h; cases h
    · rw [hl] at h'; cases h'; exact hl5 lb h
  refine ⟨e0, N0, g, k0, y, Conn.new ⟨[], .unexpectedEof⟩, ⟨[]⟩, ⟨fun t n => ?_, fun c n => ⟨max n (N0 + N1), by omega, .inr ?_⟩,
    fun c n => ⟨max n (N0 + N1), by omega, .inr ?_⟩⟩, ?_, ho0, hgk, hy, ?_, fun m hm => ?_, ?_, rfl, ?_, ?_, ?_⟩
  · refine ⟨max n (N0 + N1), by omega, .inr ?_⟩
    rw [st5 _ (by omega)]
    rintro ⟨lb, s', st, ha⟩
    by_cases t0 : t = 0
    · subst t0
      exact unread_acts hb (r2.trans r5) f5 ho0 hgk hy (by rw [hg5]; exact ne2) (o5 0) st ha
    by_cases t1 : t = 1
    · subst t1
      exact waiter_acts f5 (by rw [hheld]; nofun) t0 (o5 1) hf hw hk st ha
    · exact absent_acts (n5 t (by omega)) (o5 t) st ha
  · rw [st5 _ (by omega)]
    rintro ⟨s', st, _⟩
    have st := whole_tcp_step st (fun l e => by cases e)
    generalize s'.tcp = s6 at st
    cases st with
    | take _ x bs rest hc hi hbuf =>
      have hc : s5.fine.cfg.conns c = some x := hc
      exact busy c (by rw [hc]; nofun) hi
  · rw [st5 _ (by omega)]
    rintro ⟨t, w, s', st⟩
    have st := whole_tcp_step st (fun l e => by cases e; exact id)
    generalize s'.tcp = s6 at st
    cases st with
    | iterate _ _ _ x ht hc hr hi hd =>
      have hc : s5.fine.cfg.conns c = some x := hc
      exact busy c (by rw [hc]; nofun) hi
    | iterateEnd _ _ _ x e ht hc hr hi he hb =>
      have hc : s5.fine.cfg.conns c = some x := hc
      exact busy c (by rw [hc]; nofun) hi
    | other _ _ st h1 h2 h3 => exact h2 _ _ _ rfl
  · rw [hn0]; exact hg
  · rw [hn0]; exact ne2
  · obtain ⟨j, rfl⟩ := Nat.exists_eq_add_of_le hm
    obtain ⟨ls, r, hl⟩ := e0.reaches N0 j
    rw [hn0] at r ⊢
    refine (unread_path hb r2 hg ho0 hgk hy ne2 r (fun o h => ?_) (fun b bs h => ?_)).2.1
    · obtain ⟨m1, hm1, h⟩ := hl _ h
      rcases labs m1 hm1 _ h with h | h | h <;> cases h
    · obtain ⟨m1, hm1, h⟩ := hl _ h
      rcases labs m1 hm1 _ h with h | h | h <;> cases h
  · rw [hn0]; exact hc2
  · rw [hn0]; exact idle2
  · rw [hn0, hb2]; decide +kernel
  · intro m hm
    refine ⟨fun t o h => ?_, fun h => ?_⟩ <;> rcases labs m hm _ h with h | h | h <;> cases h

/-- A case of `C108_freeze`: that of `C108_silent`, a little later. -/
example : ∃ ls s g k0 y f k, Whole.Reach adder adderEnv dev (Whole.init adder [devA] adderWorld) ls s ∧
    s.fine.cfg.flights 0 = some g ∧ g.owner = some 0 ∧ g.code = .send k0 ∧ k0.final = some y ∧ s.got 0 ≠ y.output ∧
    s.fine.cfg.flights 1 = some f ∧ f.waiting = true ∧ f.code = .lock .used .w k := by
  obtain ⟨ls2, s2, g, k0, y, r2, hg, ho0, hgk, hy, hgot, hout, hno, hheld, hq, hc2, hb2, hin, hcn⟩ := unread_case 0
  obtain ⟨ls5, s5, f, k, r5, hf, hw, hk, ho, hoth, _, _, hg5, _⟩ := asked_waits r2 1 1 busA rfl (hno 1 (by decide)) (hin 1) hc2
    (fun v f hv h1 => by
      by_cases e : v = 0
      · subst e; rw [hg] at hv; cases hv; rw [ho0] at h1; cases h1
      · rw [hno v e] at hv; cases hv) hb2 hq (fun v f hv => by
      by_cases e : v = 0
      · subst e; rw [hg] at hv; cases hv; rw [hheld]; nofun
      · rw [hno v e] at hv; cases hv)
  exact ⟨_, s5, g, k0, y, f, k, r5, by rw [hoth 0 (by decide)]; exact hg, ho0, hgk, hy,
    by rw [hg5, hgot]; exact hout.symm, hf, hw, hk⟩

/-- A case of `C108_import`: a client asks a server that has no devices for "1-1" and does not read that there is none. -/
example (t : Nat) : ∃ ls s g k y x more, Whole.Reach adder adderEnv dev (Whole.init adder [] adderWorld) ls s ∧
    s.fine.cfg.flights t = some g ∧ g.owner = some 0 ∧ g.code = .send k ∧ k.final = some y ∧ s.got 0 ≠ y.output ∧
    s.fine.cfg.conns 0 = some x ∧ (readCommand dev : Rd Arrived Cmd) ⟨x.input.bytes⟩ = .ok (.reqImport 0 busA, more) := by
  have r1 := Tcp.Reach.tail (.refl (s0 := Tcp.init [] adderWorld) (env := adderEnv) (p := dev)) (.connect _ 0 rfl)
  have r2 := r1.tail (.arrive _ 0 (wireCmd (.reqImport 0 busA)) (by simp [Tcp.init, setConn]) rfl)
  have r3 := r2.tail (.take _ 0 (Conn.new ⟨[], .unexpectedEof⟩) (wireCmd (.reqImport 0 busA)) [] (by simp [Tcp.init, setConn])
    (fun v g hv => by cases hv) rfl)
  have r4 := r3.tail (.iterate _ t 0 .full (Conn.new (importStream busA)) rfl (by simp [setConn]; rfl) rfl
    (fun v g hv => by cases hv) (by decide +kernel))
  have hcode : iterTask adderEnv dev (Conn.new (importStream busA)) .full = importTask dev (Conn.new (importStream busA))
      ⟨[], .unexpectedEof⟩ (.reqImport 0 busA) busA .full := by
    unfold iterTask
    rw [show (Conn.new (importStream busA)).input = importStream busA from rfl, importStream_read dev busA rfl]
  rw [hcode] at r4
  have r5 := r4.tail (.other _ _ _ (.request _ t _ _ _ _ (upd_self _ _ _) rfl rfl) (fun _ _ => nofun) (fun _ _ _ => nofun)
    (fun t' f k e hf hk => by
      cases e
      have : some _ = some f := (upd_self _ _ _).symm.trans hf
      cases this; cases hk))
  have r6 := r5.tail (.other _ _ _ (.grant _ t _ _ _ _ [] (upd_self _ _ _) rfl rfl rfl (fun u g h hu hg => by
      by_cases e : u = t
      · subst e
        have : some _ = some g := (upd_self _ _ _).symm.trans hu
        cases this; cases hg
      · have : (none : Option (Flight (HandlerId → Nat))) = some g := by simpa [Tcp.init, Cfg.init, Cfg.put, upd, e] using hu
        cases this)) (fun _ _ => nofun) (fun _ _ _ => nofun)
    (fun t' f k e hf hk => by
      cases e
      have : some _ = some f := (upd_self _ _ _).symm.trans hf
      cases this; cases hk))
  have r7 := r6.tail (.other _ _ _ (.unlock _ t _ _ _ (upd_self _ _ _) rfl) (fun _ _ => nofun) (fun _ _ _ => nofun)
    (fun t' f k e hf hk => by
      cases e
      have : some _ = some f := (upd_self _ _ _).symm.trans hf
      cases this; cases hk))
  have r8 := r7.tail (.other _ _ _ (.request _ t _ _ _ _ (upd_self _ _ _) rfl rfl) (fun _ _ => nofun) (fun _ _ _ => nofun)
    (fun t' f k e hf hk => by
      cases e
      have : some _ = some f := (upd_self _ _ _).symm.trans hf
      cases this; cases hk))
  have r9 := r8.tail (.other _ _ _ (.grant _ t _ _ _ _ [] (upd_self _ _ _) rfl rfl rfl (fun u g h hu hg => by
      by_cases e : u = t
      · subst e
        have : some _ = some g := (upd_self _ _ _).symm.trans hu
        cases this; cases hg
      · have : (none : Option (Flight (HandlerId → Nat))) = some g := by simpa [Tcp.init, Cfg.init, Cfg.put, upd, e] using hu
        cases this)) (fun _ _ => nofun) (fun _ _ _ => nofun)
    (fun t' f k e hf hk => by
      cases e
      have : some _ = some f := (upd_self _ _ _).symm.trans hf
      cases this; cases hk))
  have r10 := r9.tail (.other _ _ _ (.request _ t _ _ _ _ (upd_self _ _ _) rfl rfl) (fun _ _ => nofun) (fun _ _ _ => nofun)
    (fun t' f k e hf hk => by
      cases e
      have : some _ = some f := (upd_self _ _ _).symm.trans hf
      cases this; cases hk))
  have r11 := r10.tail (.other _ _ _ (.grant _ t _ _ _ _ [] (upd_self _ _ _) rfl rfl rfl (fun u g h hu hg => by
      by_cases e : u = t
      · subst e
        have : some _ = some g := (upd_self _ _ _).symm.trans hu
        cases this; cases hg
      · have : (none : Option (Flight (HandlerId → Nat))) = some g := by simpa [Tcp.init, Cfg.init, Cfg.put, upd, e] using hu
        cases this)) (fun _ _ => nofun) (fun _ _ _ => nofun)
    (fun t' f k e hf hk => by
      cases e
      have : some _ = some f := (upd_self _ _ _).symm.trans hf
      cases this; cases hk))
  have r12 := r11.tail (.other _ _ _ (.commit _ t _ _ _ (upd_self _ _ _) rfl) (fun _ _ => nofun) (fun _ _ _ => nofun)
    (fun t' f k e => by cases e))
  have r13 := r12.tail (.other _ _ _ (.getAvail _ t _ _ (upd_self _ _ _) rfl) (fun _ _ => nofun) (fun _ _ _ => nofun)
    (fun t' f k e hf hk => by
      cases e
      have : some _ = some f := (upd_self _ _ _).symm.trans hf
      cases this; cases hk))
  obtain ⟨S, q, hS, _, _⟩ := lift_all' adder_behaves r13 (.inl adder_returns) (fun f cr hf => by simp at hf)
  refine ⟨_, S, _, _, _, Conn.new (importStream busA), ⟨[]⟩, q,
    (congrArg (fun a : Tcp (HandlerId → Nat) => a.cfg.flights t) hS).trans (upd_self _ _ _), rfl, rfl, rfl, ?_,
    (congrArg (fun a : Tcp (HandlerId → Nat) => a.cfg.conns 0) hS).trans rfl, by decide +kernel⟩
  rw [show S.got 0 = [] from (congrArg (fun a : Tcp (HandlerId → Nat) => a.got 0) hS).trans rfl]
  decide +kernel

end Usbip
