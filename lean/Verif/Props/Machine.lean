import Verif.Lemmas.MachineLive
import Verif.Props.WholeLive
import Verif.Props.Listen
/-!
# A client of a whole process (C91)
-/

namespace Usbip
open Spec Samples

section
variable {τ : Type} (code : Code τ) (env : Env (HandlerId → τ)) (p : Profile) (devices : List Device)
  (w : World (HandlerId → τ))

/-- C91: however calls of `server`, clients, tasks, sockets, handler code and the application are interleaved,
the `UsbIpServer` and its connections do what they do in an execution of the server in which connections just
appear (C81); an accepted connection starts with what its client has said before. -/
theorem C91_server (hb : Behaves code env) (ls : List (MachineLabel (HandlerId → τ))) (s : Machine code)
    (h : Machine.Reach code env p (Machine.init code devices w) ls s) :
    Whole.Reach code env p (Whole.init code devices w) (ls.flatMap toServer) s.whole :=
  (KInv.reach hb h).whole

/-- C91: at every moment the process is the one that serves one operation at a time, in the order in which the
operations have taken effect (C82): the calls of `server` with their queues, the clients that wait or were
refused; every handler object nobody is using, who has panicked; the tables (unless somebody is changing them),
every connection that is between commands.  Every client has received a beginning of what that process has sent
to it, and all of it if its connection is between commands. -/
theorem C91_explained (hb : Behaves code env) (ls : List (MachineLabel (HandlerId → τ))) (s : Machine code)
    (h : Machine.Reach code env p (Machine.init code devices w) ls s) :
    let P := (Proc.init devices w).run env p (ls.filterMap machineEvent)
    s.calls = P.calls ∧ s.front = P.front ∧
    (∀ o, s.whole.fine.free o → s.whole.fine.cfg.shared.world.user o = P.net.sys.shared.world.user o) ∧
    (∀ o, crashed s.whole.fine.cfg.shared.world o = crashed P.net.sys.shared.world o) ∧
    s.whole.ended = P.net.ended ∧
    (∀ c, s.whole.fine.cfg.idle c → P.net.sys.conns c = (s.whole.fine.cfg.conns c).map (fun x =>
      { x with input := ⟨x.input.bytes ++ s.whole.buf c, (s.whole.ended c).getD .unexpectedEof⟩ })) ∧
    ((∀ t f, s.whole.fine.cfg.flights t = some f → f.held .used ≠ some .w) →
      s.whole.fine.cfg.shared.used = P.net.sys.shared.used) ∧
    ((∀ t f, s.whole.fine.cfg.flights t = some f → f.held .avail ≠ some .w) →
      s.whole.fine.cfg.shared.available = P.net.sys.shared.available) ∧
    (∀ c, s.whole.got c <+: sentTo P.net c) ∧
    (∀ c, s.whole.fine.cfg.idle c → s.whole.got c = sentTo P.net c) := by
  have hK := KInv.reach hb h
  have := C81_explained code env hb p devices w _ _ hK.whole
  refine ⟨hK.calls.symm, hK.front.symm, ?_⟩
  rw [hK.net]
  exact this

/-- C91 and C76: every client that has been accepted has received a beginning of what the reference server has sent
to it after the operations that have taken effect, and all of it if its connection is between commands. -/
theorem C91_reference (hb : Behaves code env) (ls : List (MachineLabel (HandlerId → τ))) (s : Machine code)
    (h : Machine.Reach code env p (Machine.init code devices w) ls s) (hd : (devices.map Device.busId).Nodup)
    (ht : TidyLive env p (Live.start devices w) ((ls.flatMap toServer).filterMap tcpEvent)) (c : Nat) :
    let r := ((Live.start devices w).run env p ((ls.flatMap toServer).filterMap tcpEvent)).server
    (∀ o, s.whole.fine.free o → s.whole.fine.cfg.shared.world.user o = r.world.user o) ∧
    (∀ y, r.clients c = some y → s.whole.got c <+: y.sent ∧
      (s.whole.fine.cfg.idle c → s.whole.got c = y.sent ∧ ∃ x, s.whole.fine.cfg.conns c = some x ∧ x.status = y.status)) ∧
    (r.clients c = none → s.whole.got c = [] ∧ s.front c ≠ .accepted) := by
  have hK := KInv.reach hb h
  obtain ⟨h1, h2, h3⟩ := C81_reference code env hb p devices w _ _ hK.whole hd ht c
  refine ⟨h1, h2, fun hn => ⟨(h3 hn).1, fun hf => ?_⟩⟩
  obtain ⟨_, w', _, hr⟩ := whole_reach hb hK.whole
  have hP : PInv ((Proc.init devices w).run env p (ls.filterMap machineEvent)) := (PInv.init devices w).run _
  have hc : s.whole.fine.cfg.conns c = none := (h3 hn).2
  have hidle : s.whole.fine.cfg.idle c := fun t f hf' ho => by
    obtain ⟨x, hx⟩ := (tcp_tame hr).owner t f c hf' ho
    have : s.whole.fine.cfg.conns c = some x := hx
    rw [hc] at this; cases this
  have := (C91_explained code env p devices w hb ls s h).2.2.2.2.2.1 c hidle
  rw [hc] at this
  exact (hP.conn c).mpr (by rw [hK.front]; exact hf) this

/-- C91: nothing can keep `server` from accepting: in every state in which somebody waits at a call, whoever holds
locks, whoever is in handler code, whatever reply is stuck, the first who waits can be accepted. -/
theorem C91_accepting (hb : Behaves code env) (ls : List (MachineLabel (HandlerId → τ))) (s : Machine code)
    (h : Machine.Reach code env p (Machine.init code devices w) ls s) (k c : Nat) (q : List Nat)
    (hk : s.calls k = some (.listening (c :: q))) :
    ∃ bs fin s', Machine.Step code env p s (some (.accept k c bs fin)) s' ∧ s'.front c = .accepted ∧
      s'.calls k = some (.listening q) := by
  have hK := KInv.reach hb h
  have hP : PInv ((Proc.init devices w).run env p (ls.filterMap machineEvent)) := (PInv.init devices w).run _
  obtain ⟨b, e, hw⟩ := hP.queued k _ (by rw [hK.calls]; exact hk) c (by simp)
  rw [hK.front] at hw
  exact ⟨b, e, _, .accept s k c q b e hk hw, upd_self _ _ _, upd_self _ _ _⟩

/-- C91: and everything a server can do in the executions of C81 (and, by `C81_realised`, in the histories of C73) it
does in a process with a single call of `server`, whose queue is empty again. -/
theorem C91_realised (hb : Behaves code env) (ls : List (TcpLabel (HandlerId → τ))) (s : Whole code)
    (h : Whole.Reach code env p (Whole.init code devices w) ls s) :
    ∃ ls' m, Machine.Reach code env p (Machine.init code devices w) ls' m ∧ m.whole = s ∧ ls'.filterMap asServer = ls ∧
      m.calls 0 = some (.listening []) ∧ ∀ c, m.front c = if s.fine.cfg.conns c = none then .unknown else .accepted :=
  machine_realised hb h

variable (e : MachineExec code env p (Machine.init code devices w))

/-- C91: in a fair execution, a call of `server` that is not dropped accepts everybody who waits at it, with
everything they have said. -/
theorem C91_accepted (hb : Behaves code env) (hfair : e.Fair) (n k c : Nat) (q : List Nat)
    (hk : (e.state n).calls k = some (.listening q)) (hc : c ∈ q)
    (hd : ∀ m, n ≤ m → e.label m ≠ some (.dropServe k)) :
    ∃ m b fi bs fin, n ≤ m ∧ (e.state n).front c = .waiting b fi ∧ e.label m = some (.accept k c bs fin) ∧
      (∃ more, bs = b ++ more) ∧ (fi ≠ none → fin = fi ∧ bs = b) := by
  obtain ⟨ls, hK⟩ := exec_inv hb e n
  have hP : PInv ((Proc.init devices w).run env p (ls.filterMap machineEvent)) := (PInv.init devices w).run _
  obtain ⟨b, fi, hw⟩ := hP.queued k _ (by rw [hK.calls]; exact hk) c hc
  rw [hK.front] at hw
  obtain ⟨A, B, rfl⟩ := List.append_of_mem hc
  obtain ⟨m, bs, fin, h1, h2, h3, h4⟩ := accepted_in_turn hb hfair k c A.length n A B b fi rfl hk hw hd
  exact ⟨m, b, fi, bs, fin, h1, hw, h2, h3, h4⟩

/-- C91: in a fair execution in which handler code always returns and no `remove_device` call waits for the imported
devices (see `C62_needed`), requests that have arrived at a running connection are answered, in their order, one
response each, and the client gets all of them; unless the task panics on one, the task is dropped or writing to
the socket fails. -/
theorem C91_answered (hb : Behaves code env) (hret : Returns code) (hfair : e.Fair)
    (hno : ∀ n t f i m k, (e.state n).whole.fine.cfg.flights t = some f → f.ev = .removeDevice i → f.code ≠ .lock .used m k)
    (n c : Nat) (x : Conn) (hx : (e.state n).whole.fine.cfg.conns c = some x) (hr : x.status = .running)
    (qs : List (Cmd × Bytes)) (hne : qs ≠ []) (hq : Requests p qs) (rest : Bytes)
    (hbuf : x.input.bytes ++ (e.state n).whole.buf c = (qs.map (·.2)).flatten ++ rest) :
    ∃ m y, n < m ∧ (e.state m).whole.fine.cfg.conns c = some y ∧ (e.state m).whole.fine.cfg.idle c ∧
      (e.state m).whole.got c = y.output ∧
      ((AnswersAll p x y (qs.map (·.1)) ∧ y.status = .running) ∨ y.status = .panicked ∨ e.Faulted c m y) := by
  obtain ⟨e', B⟩ := exists_within hb e
  obtain ⟨i, y, h1, h2, h3, h4, h5⟩ := C84_all code env p devices w hb hret e' (B.fair hfair) (B.no_waits hno) (3 * n) c x
    (by rw [B.state0]; exact hx) hr qs hne hq rest (by rw [B.state0]; exact hbuf)
  obtain ⟨m, hm, hm', hf, hg⟩ := B.near i
  rw [hf] at h2 h3
  rw [hg] at h4
  exact ⟨m, y, by omega, h2, h3, h4, h5.imp id (Or.imp id (B.faulted hm))⟩

/-- C91: a client that has connected to a call of `server` and has sent requests is accepted and gets its answers, all
of them and in order, if the call is not dropped before; unless the task panics on a request, the task is
dropped or writing to the socket fails. -/
theorem C91_served (hb : Behaves code env) (hret : Returns code) (hfair : e.Fair)
    (hno : ∀ n t f i m k, (e.state n).whole.fine.cfg.flights t = some f → f.ev = .removeDevice i → f.code ≠ .lock .used m k)
    (n k c : Nat) (q : List Nat) (hk : (e.state n).calls k = some (.listening q)) (hc : c ∈ q)
    (hd : ∀ m, n ≤ m → e.label m ≠ some (.dropServe k))
    (qs : List (Cmd × Bytes)) (hne : qs ≠ []) (hq : Requests p qs) (rest : Bytes) (fi : Option ErrKind)
    (hf : (e.state n).front c = .waiting ((qs.map (·.2)).flatten ++ rest) fi) :
    ∃ m y, n < m ∧ (e.state m).front c = .accepted ∧ (e.state m).whole.fine.cfg.conns c = some y ∧
      (e.state m).whole.fine.cfg.idle c ∧ (e.state m).whole.got c = y.output ∧
      ((AnswersAll p (Conn.new ⟨[], .unexpectedEof⟩) y (qs.map (·.1)) ∧ y.status = .running) ∨
        y.status = .panicked ∨ e.Faulted c m y) := by
  obtain ⟨m, b, fi', bs, fin, h1, h2, h3, ⟨more, h4⟩, _⟩ := C91_accepted code env p devices w e hb hfair n k c q hk hc hd
  rw [hf] at h2
  cases h2
  obtain ⟨g1, g2, _, _⟩ := after_accept h3
  obtain ⟨m', y, k1, k2, k3, k4, k5⟩ := C91_answered code env p devices w e hb hret hfair hno (m + 1) c _ g1 rfl qs hne hq
    (rest ++ more) (by rw [g2, h4]; simp [Conn.new])
  obtain ⟨ls, hK⟩ := exec_inv hb e m'
  refine ⟨m', y, by omega, Classical.byContradiction fun hn => ?_, k2, k3, k4, k5⟩
  rw [hK.conn c hn] at k2; cases k2

/-- C91: when a client has hung up, before or after it was accepted, its connection comes to an end, whatever the client
has sent, and is over for good: it holds no device any more, or its task has panicked (or was dropped, or could not
write). -/
theorem C91_hangup (hb : Behaves code env) (hret : Returns code) (hfair : e.Fair)
    (hno : ∀ n t f i m k, (e.state n).whole.fine.cfg.flights t = some f → f.ev = .removeDevice i → f.code ≠ .lock .used m k)
    (n c : Nat) (h : (∃ k q b er, (e.state n).calls k = some (.listening q) ∧ c ∈ q ∧
        (e.state n).front c = .waiting b (some er) ∧ ∀ m, n ≤ m → e.label m ≠ some (.dropServe k)) ∨
      ∃ x, (e.state n).whole.fine.cfg.conns c = some x ∧ x.status = .running ∧ (e.state n).whole.ended c ≠ none) :
    ∃ m y, n < m ∧ (e.state m).whole.fine.cfg.conns c = some y ∧ (Over y ∨ e.Faulted c m y) ∧
      ∀ m', m ≤ m' → (e.state m').whole.fine.cfg.idle c ∧ (e.state m').whole.got c = y.output ∧
        ∃ z, (e.state m').whole.fine.cfg.conns c = some z ∧ z.status = y.status ∧ z.current = y.current ∧ z.served = y.served := by
  have main : ∀ n x, (e.state n).whole.fine.cfg.conns c = some x → x.status = .running → (e.state n).whole.ended c ≠ none →
      ∃ m y, n < m ∧ (e.state m).whole.fine.cfg.conns c = some y ∧ (Over y ∨ e.Faulted c m y) ∧
      ∀ m', m ≤ m' → (e.state m').whole.fine.cfg.idle c ∧ (e.state m').whole.got c = y.output ∧
        ∃ z, (e.state m').whole.fine.cfg.conns c = some z ∧ z.status = y.status ∧ z.current = y.current ∧ z.served = y.served := by
    intro n x hx hr hend
    obtain ⟨e', B⟩ := exists_within hb e
    obtain ⟨i, y, h1, h2, h3, h4⟩ := C84_hangup code env p devices w hb hret e' (B.fair hfair) (B.no_waits hno) (3 * n) c x
      (by rw [B.state0]; exact hx) (by rw [B.state0]; exact hend) hr
    obtain ⟨m, hm, hm', hf, hg⟩ := B.near i
    rw [hf] at h2
    refine ⟨m, y, by omega, h2, h3.imp id (B.faulted hm), fun m' hmm => ?_⟩
    have := h4 (3 * m') (by omega)
    rwa [B.state0] at this
  rcases h with ⟨k, q, b, er, hk, hc, hf, hd⟩ | ⟨x, hx, hr, hend⟩
  · obtain ⟨m, b', fi', bs, fin, h1, h2, h3, _, h5⟩ := C91_accepted code env p devices w e hb hfair n k c q hk hc hd
    rw [hf] at h2
    cases h2
    obtain ⟨g1, _, g3, _⟩ := after_accept h3
    obtain ⟨m', y, k1, k2⟩ := main (m + 1) _ g1 rfl (by rw [g3, (h5 (by simp)).1]; simp)
    exact ⟨m', y, by omega, k2⟩
  · exact main n x hx hr hend

/-- C91: every call of `add_device` and `remove_device` that was started returns, and every command that is
being worked on is done with, unless it is dropped. -/
theorem C91_completes (hb : Behaves code env) (hret : Returns code) (hfair : e.Fair)
    (hno : ∀ n t f i m k, (e.state n).whole.fine.cfg.flights t = some f → f.ev = .removeDevice i → f.code ≠ .lock .used m k)
    (t n : Nat) (ev : Event (HandlerId → τ)) (hs : e.label n = some (.inner (.server (.start t ev)))) :
    ∃ m, n < m ∧ (e.label m = some (.inner (.server (.ended t))) ∨ ∃ o, e.label m = some (.inner (.server (.dropped t o)))) := by
  obtain ⟨e', B⟩ := exists_within hb e
  obtain ⟨i, h1, h2⟩ := C84_completes code env p devices w hb hret e' (B.fair hfair) (B.no_waits hno) t (3 * n) ev
    (by rw [B.label0, hs]; rfl)
  rcases h2 with h2 | ⟨o, h2⟩
  · obtain ⟨m, rfl, hm⟩ := B.inner_label h2 (by simp) (by simp) (by simp)
    exact ⟨m, by omega, .inl hm⟩
  · obtain ⟨m, rfl, hm⟩ := B.inner_label h2 (by simp) (by simp) (by simp)
    exact ⟨m, by omega, .inr ⟨o, hm⟩⟩

end

/-! ## A concrete execution

A call of `server`; a client connects to it, sends an import and a submit and hangs up before it is accepted. -/

namespace Samples

/-- The process before `accept`. -/
def beforeAccept (i : Nat) : Machine adder :=
  let s := Machine.init adder [devA] adderWorld
  match i with
  | 0 => s
  | 1 => { s with calls := upd s.calls 0 (some (.listening [])) }
  | 2 => { s with calls := upd (upd s.calls 0 (some (.listening []))) 0 (some (.listening [0]))
                  front := upd s.front 0 (.waiting [] none) }
  | 3 => { s with calls := upd (upd s.calls 0 (some (.listening []))) 0 (some (.listening [0]))
                  front := upd (upd s.front 0 (.waiting [] none)) 0
                    (.waiting (wireCmd (.reqImport 0 busA) ++ wireCmd askHandler) none) }
  | _ => { s with calls := upd (upd s.calls 0 (some (.listening []))) 0 (some (.listening [0]))
                  front := upd (upd (upd s.front 0 (.waiting [] none)) 0
                    (.waiting (wireCmd (.reqImport 0 busA) ++ wireCmd askHandler) none)) 0
                    (.waiting (wireCmd (.reqImport 0 busA) ++ wireCmd askHandler) (some .unexpectedEof)) }

def beforeLabel (i : Nat) : Option (MachineLabel (HandlerId → Nat)) :=
  match i with
  | 0 => some (.serve 0 true)
  | 1 => some (.dial 0 0)
  | 2 => some (.early 0 (wireCmd (.reqImport 0 busA) ++ wireCmd askHandler))
  | 3 => some (.earlyEnd 0 .unexpectedEof)
  | _ => some (.accept 0 0 (wireCmd (.reqImport 0 busA) ++ wireCmd askHandler) (some .unexpectedEof))

end Samples

/-- The process goes on as the server does in `submitted`. -/
theorem submittedToProcess : ∃ e : MachineExec adder adderEnv dev (Machine.init adder [devA] adderWorld), e.Fair ∧
    (∀ n t f i m k, (e.state n).whole.fine.cfg.flights t = some f → f.ev = .removeDevice i → f.code ≠ .lock .used m k) ∧
    e.state 4 = beforeAccept 4 ∧ (∀ m k, e.label m ≠ some (.dropServe k)) ∧
    (∃ m t ev, e.label m = some (.inner (.server (.start t ev)))) ∧
    ∃ n y, 4 < n ∧ (e.state n).whole.fine.cfg.conns 0 = some y ∧ y.served.map (·.1) = [.reqImport 0 busA, askHandler] ∧
      y.status = .closed ∧ y.current = none := by
  obtain ⟨e, n0, hfair, hno, h3, hcon, n, y, hn, hy, hy1, hy2, hy3, _⟩ := submitted
  let C : Nat → Option Serving := upd (beforeAccept 4).calls 0 (some (.listening []))
  let F : Nat → Dialled := upd (beforeAccept 4).front 0 .accepted
  let S : Nat → Machine adder := fun i =>
    if i < 5 then beforeAccept i else { whole := e.state (n0 + (i - 5)), calls := C, front := F }
  let L : Nat → Option (MachineLabel (HandlerId → Nat)) := fun i =>
    if i < 5 then beforeLabel i else (e.label (n0 + (i - 5))).map .inner
  have S5 : ∀ i, S (i + 5) = { whole := e.state (n0 + i), calls := C, front := F } := by
    intro i; simp only [S]; rw [if_neg (by omega), Nat.add_sub_cancel]
  have L5 : ∀ i, L (i + 5) = (e.label (n0 + i)).map .inner := by
    intro i; simp only [L]; rw [if_neg (by omega), Nat.add_sub_cancel]
  have hstep : ∀ i, Machine.Step adder adderEnv dev (S i) (L i) (S (i + 1)) ∨ (L i = none ∧ S (i + 1) = S i) := by
    intro i
    match i with
    | 0 => exact .inl (.serve _ 0 true rfl)
    | 1 => exact .inl (.dial _ 0 0 [] rfl rfl)
    | 2 =>
      refine .inl ?_
      have := Machine.Step.early (code := adder) (env := adderEnv) (p := dev) (beforeAccept 2) 0 []
        (wireCmd (.reqImport 0 busA) ++ wireCmd askHandler) rfl
      exact this
    | 3 => exact .inl (.earlyEnd _ 0 _ .unexpectedEof rfl)
    | 4 =>
      refine .inl ?_
      have := Machine.Step.accept (code := adder) (env := adderEnv) (p := dev) (beforeAccept 4) 0 0 []
        (wireCmd (.reqImport 0 busA) ++ wireCmd askHandler) (some .unexpectedEof) rfl rfl
      rw [show (4 + 1 : Nat) = 0 + 5 from rfl, S5, Nat.add_zero, h3]
      exact this
    | i + 5 =>
      rw [show i + 5 + 1 = (i + 1) + 5 from by omega, S5, S5, L5]
      rcases e.step (n0 + i) with st | ⟨h1, h2⟩
      · exact .inl (.inner _ _ _ st (fun c x h => hcon _ c x (by omega) h))
      · refine .inr ⟨by rw [h1]; rfl, ?_⟩
        rw [← Nat.add_assoc, h2]
  let E : MachineExec adder adderEnv dev (Machine.init adder [devA] adderWorld) := ⟨S, L, rfl, hstep⟩
  have inS : ∀ lb : Option (TcpLabel (HandlerId → Nat)), inServer (lb.map .inner) = lb := by rintro (_ | lb) <;> rfl
  refine ⟨E, ?_, ?_, rfl, ?_, ?_, n - n0 + 5, y, by omega, ?_, hy1, hy2, hy3⟩
  · refine ⟨fun t n => ?_, fun t n hp hen => ?_, fun a n => ?_, fun c n => ?_, fun c n => ?_, fun c n => ?_, fun k n => ?_⟩
    · obtain ⟨m, hm, h⟩ := hfair.tasks t (n0 + n)
      obtain ⟨d, rfl⟩ := Nat.exists_eq_add_of_le (show n0 ≤ m by omega)
      refine ⟨d + 5, by omega, ?_⟩
      show Acts t (S (d + 5)).whole (inServer (L (d + 5))) (S (d + 5 + 1)).whole ∨
        ¬ ∃ lb s', Whole.Step adder adderEnv dev (S (d + 5)).whole lb s' ∧ Acts t (S (d + 5)).whole lb s'
      rw [show d + 5 + 1 = (d + 1) + 5 from by omega, S5, S5, L5, inS]
      exact h
    · obtain ⟨m, hm, h⟩ := hfair.mutexes t (n0 + n) (fun m hm => by
        obtain ⟨d, rfl⟩ := Nat.exists_eq_add_of_le (show n0 ≤ m by omega)
        have := hp (d + 5) (by omega)
        rw [show E.state (d + 5) = S (d + 5) from rfl, S5] at this
        exact this) (fun m hm => by
        obtain ⟨d, rfl⟩ := Nat.exists_eq_add_of_le (show n0 ≤ m by omega)
        obtain ⟨m', hm', h⟩ := hen (d + 5) (by omega)
        obtain ⟨d', rfl⟩ := Nat.exists_eq_add_of_le (show 5 ≤ m' by omega)
        rw [show E.state (5 + d') = S (5 + d') from rfl, Nat.add_comm 5 d', S5] at h
        exact ⟨n0 + d', by omega, h⟩)
      obtain ⟨d, rfl⟩ := Nat.exists_eq_add_of_le (show n0 ≤ m by omega)
      refine ⟨d + 5, by omega, ?_⟩
      show Acts t (S (d + 5)).whole (inServer (L (d + 5))) (S (d + 5 + 1)).whole
      rw [show d + 5 + 1 = (d + 1) + 5 from by omega, S5, S5, L5, inS]
      exact h
    · obtain ⟨m, hm, h⟩ := hfair.apps a (n0 + n)
      obtain ⟨d, rfl⟩ := Nat.exists_eq_add_of_le (show n0 ≤ m by omega)
      exact ⟨d + 5, by omega, by show (S (d + 5)).whole.fine.app a = none; rw [S5]; exact h⟩
    · obtain ⟨m, hm, h⟩ := hfair.reads c (n0 + n)
      obtain ⟨d, rfl⟩ := Nat.exists_eq_add_of_le (show n0 ≤ m by omega)
      refine ⟨d + 5, by omega, ?_⟩
      show (L (d + 5) = some (.inner (.take c)) ∧ (S (d + 5 + 1)).whole.buf c ≠ (S (d + 5)).whole.buf c) ∨
        ¬ ∃ s', Whole.Step adder adderEnv dev (S (d + 5)).whole (some (.take c)) s' ∧ s'.buf c ≠ (S (d + 5)).whole.buf c
      rw [show d + 5 + 1 = (d + 1) + 5 from by omega, S5, S5, L5]
      exact h.imp (fun ⟨h1, h2⟩ => ⟨by rw [h1]; rfl, h2⟩) id
    · obtain ⟨m, hm, h⟩ := hfair.loops c (n0 + n)
      obtain ⟨d, rfl⟩ := Nat.exists_eq_add_of_le (show n0 ≤ m by omega)
      refine ⟨d + 5, by omega, ?_⟩
      show (∃ t w, L (d + 5) = some (.inner (.server (.start t (.iterate c w))))) ∨
        ¬ ∃ t w s', Whole.Step adder adderEnv dev (S (d + 5)).whole (some (.server (.start t (.iterate c w)))) s'
      rw [S5, L5]
      exact h.imp (fun ⟨t, w, h1⟩ => ⟨t, w, by rw [h1]; rfl⟩) id
    · obtain ⟨m, hm, h⟩ := hfair.clients c (n0 + n)
      obtain ⟨d, rfl⟩ := Nat.exists_eq_add_of_le (show n0 ≤ m by omega)
      refine ⟨d + 5, by omega, ?_⟩
      show (∃ b bs, L (d + 5) = some (.inner (.piece c (b :: bs)))) ∨
        ¬ ∃ b s', Whole.Step adder adderEnv dev (S (d + 5)).whole (some (.piece c [b])) s'
      rw [S5, L5]
      exact h.imp (fun ⟨t, w, h1⟩ => ⟨t, w, by rw [h1]; rfl⟩) id
    · refine ⟨n + 5, by omega, .inr ?_⟩
      show ¬ ∃ c q, (S (n + 5)).calls k = some (.listening (c :: q))
      rw [S5]
      rintro ⟨c, q, h⟩
      by_cases e : k = 0
      · subst e
        simp [C, upd_self] at h
      · simp [C, upd_ne _ _ e, beforeAccept, Machine.init] at h
  · intro m t f i md k hf
    change (S m).whole.fine.cfg.flights t = some f at hf
    by_cases hm : m < 5
    · have : (S m).whole.fine.cfg.flights t = none := by
        simp only [S, if_pos hm]
        unfold beforeAccept
        split <;> rfl
      rw [this] at hf; cases hf
    · obtain ⟨d, rfl⟩ := Nat.exists_eq_add_of_le (Nat.not_lt.1 hm)
      rw [Nat.add_comm 5 d, S5] at hf
      exact hno _ t f i md k hf
  · intro m k
    show L m ≠ _
    by_cases hm : m < 5
    · simp only [L, if_pos hm]
      unfold beforeLabel
      split <;> simp
    · obtain ⟨d, rfl⟩ := Nat.exists_eq_add_of_le (Nat.not_lt.1 hm)
      rw [Nat.add_comm 5 d, L5]
      cases e.label (n0 + d) <;> simp
  · obtain ⟨e', B⟩ := exists_behind adder_behaves e
    obtain ⟨k, t, ev, hk, hl⟩ := B.started (n := n0) (m := n) (c := 0) (x := Conn.new ⟨[], .unexpectedEof⟩)
      (fun t => by rw [h3]; rfl) (by rw [h3]; rfl) (by omega) hy (fun h => by rw [h] at hy1; cases hy1)
    obtain ⟨d, rfl⟩ := Nat.exists_eq_add_of_le hk
    exact ⟨d + 5, t, ev, by show L (d + 5) = _; rw [L5, hl]; rfl⟩
  · show (S (n - n0 + 5)).whole.fine.cfg.conns 0 = some y
    rw [S5, show n0 + (n - n0) = n from by omega]
    exact hy

/-- C91 on `submittedToProcess`: all hypotheses are met. -/
example : ∃ e : MachineExec adder adderEnv dev (Machine.init adder [devA] adderWorld), e.state 4 = beforeAccept 4 ∧
    (∃ m b fi bs fin, 4 ≤ m ∧ (e.state 4).front 0 = .waiting b fi ∧ e.label m = some (.accept 0 0 bs fin) ∧
      (∃ more, bs = b ++ more) ∧ (fi ≠ none → fin = fi ∧ bs = b)) ∧
    (∃ m y, 4 < m ∧ (e.state m).front 0 = .accepted ∧ (e.state m).whole.fine.cfg.conns 0 = some y ∧
      (e.state m).whole.fine.cfg.idle 0 ∧ (e.state m).whole.got 0 = y.output ∧
      ((AnswersAll dev (Conn.new ⟨[], .unexpectedEof⟩) y [.reqImport 0 busA, askHandler] ∧ y.status = .running) ∨
        y.status = .panicked ∨ e.Faulted 0 m y)) ∧
    (∃ m y, 4 < m ∧ (e.state m).whole.fine.cfg.conns 0 = some y ∧ (Over y ∨ e.Faulted 0 m y)) ∧
    ∃ n t ev, e.label n = some (.inner (.server (.start t ev))) ∧
      ∃ m, n < m ∧ (e.label m = some (.inner (.server (.ended t))) ∨ ∃ o, e.label m = some (.inner (.server (.dropped t o)))) := by
  obtain ⟨e, hfair, hno, h4, hd, ⟨m, t, ev, hl⟩, _⟩ := submittedToProcess
  have hk : (e.state 4).calls 0 = some (.listening [0]) := by rw [h4]; rfl
  have hf : (e.state 4).front 0 = .waiting ((wireCmd (.reqImport 0 busA) ++ wireCmd askHandler)) (some .unexpectedEof) := by
    rw [h4]; rfl
  refine ⟨e, h4, ?_, ?_, ?_, m, t, ev, hl, ?_⟩
  · exact C91_accepted _ _ _ _ _ e adder_behaves hfair 4 0 0 [0] hk (by simp) (fun m _ => hd m 0)
  · exact C91_served _ _ _ _ _ e adder_behaves adder_returns hfair hno 4 0 0 [0] hk (by simp) (fun m _ => hd m 0)
      _ (by simp) import_submit [] (some .unexpectedEof) (by rw [hf]; simp)
  · obtain ⟨m, y, h1, h2, h3, _⟩ := C91_hangup _ _ _ _ _ e adder_behaves adder_returns hfair hno 4 0
      (.inl ⟨0, [0], _, _, hk, by simp, hf, fun m _ => hd m 0⟩)
    exact ⟨m, y, h1, h2, h3⟩
  · exact C91_completes _ _ _ _ _ e adder_behaves adder_returns hfair hno t m ev hl

/-- C91_answered where the client is accepted. -/
example : ∃ (e : MachineExec adder adderEnv dev (Machine.init adder [devA] adderWorld)) (n : Nat) (x : Conn),
    (e.state n).whole.fine.cfg.conns 0 = some x ∧ x.served = [] ∧
    ∃ m y, n < m ∧ (e.state m).whole.fine.cfg.conns 0 = some y ∧ (e.state m).whole.fine.cfg.idle 0 ∧
      (e.state m).whole.got 0 = y.output ∧
      ((AnswersAll dev x y [.reqImport 0 busA, askHandler] ∧ y.status = .running) ∨ y.status = .panicked ∨
        e.Faulted 0 m y) := by
  obtain ⟨e, hfair, hno, h4, hd, _⟩ := submittedToProcess
  have hk : (e.state 4).calls 0 = some (.listening [0]) := by rw [h4]; rfl
  obtain ⟨m, b, fi, bs, fin, h1, h2, h3, h5, h6⟩ :=
    C91_accepted _ _ _ _ _ e adder_behaves hfair 4 0 0 [0] hk (by simp) (fun m _ => hd m 0)
  have hf : (e.state 4).front 0 = .waiting ((wireCmd (.reqImport 0 busA) ++ wireCmd askHandler)) (some .unexpectedEof) := by
    rw [h4]; rfl
  rw [hf] at h2; cases h2
  obtain ⟨g1, g2, _⟩ := after_accept h3
  exact ⟨e, m + 1, _, g1, rfl, C91_answered _ _ _ _ _ e adder_behaves adder_returns hfair hno (m + 1) 0 _ g1 rfl _ (by simp)
    import_submit [] (by rw [g2, (h6 (by simp)).2]; simp [Conn.new])⟩

/-- C91_realised: the state with which `submitted` begins. -/
example : ∃ ls' m, Machine.Reach adder adderEnv dev (Machine.init adder [devA] adderWorld) ls' m ∧
    m.whole = importSubmitOut ∧ ls'.filterMap asServer =
      [.server (.outside (.connect 0 ⟨[], .unexpectedEof⟩)),
        .arrive 0 (wireCmd (.reqImport 0 busA) ++ wireCmd askHandler), .hangup 0 .unexpectedEof] ∧
    m.front 0 = .accepted := by
  obtain ⟨ls', m, h1, h2, h3, _, h5⟩ := C91_realised _ _ _ _ _ adder_behaves _ _ importSubmitOut_reach
  exact ⟨ls', m, h1, h2, h3, by rw [h5]; rfl⟩

/-- The beginning of `submittedToProcess`: the client waits with its two requests. -/
theorem beforeAccept_reach : Machine.Reach adder adderEnv dev (Machine.init adder [devA] adderWorld)
    [.serve 0 true, .dial 0 0, .early 0 (wireCmd (.reqImport 0 busA) ++ wireCmd askHandler), .earlyEnd 0 .unexpectedEof]
    (beforeAccept 4) := by
  have r1 := Machine.Reach.tail .refl (.serve (env := adderEnv) (p := dev) (beforeAccept 0) 0 true rfl)
  have r2 := Machine.Reach.tail r1 (.dial (beforeAccept 1) 0 0 [] rfl rfl)
  have r3 := Machine.Reach.tail r2 (.early (beforeAccept 2) 0 [] (wireCmd (.reqImport 0 busA) ++ wireCmd askHandler) rfl)
  exact Machine.Reach.tail r3 (.earlyEnd (beforeAccept 3) 0 _ .unexpectedEof rfl)

/-- The other theorems of C91 there, and after the client was accepted. -/
example : (∃ bs fin s', Machine.Step adder adderEnv dev (beforeAccept 4) (some (.accept 0 0 bs fin)) s' ∧
      s'.front 0 = .accepted ∧ s'.calls 0 = some (.listening [])) ∧
    (∃ ls s, Machine.Reach adder adderEnv dev (Machine.init adder [devA] adderWorld) ls s ∧ s.front 0 = .accepted ∧
      Whole.Reach adder adderEnv dev (Whole.init adder [devA] adderWorld)
        [.server (.outside (.connect 0 ⟨[], .unexpectedEof⟩)),
          .arrive 0 (wireCmd (.reqImport 0 busA) ++ wireCmd askHandler), .hangup 0 .unexpectedEof] s.whole ∧
      s.calls = ((Proc.init [devA] adderWorld).run adderEnv dev (ls.filterMap machineEvent)).calls ∧
      s.whole.got 0 = []) := by
  refine ⟨C91_accepting _ _ _ _ _ adder_behaves _ _ beforeAccept_reach 0 0 [] rfl, ?_⟩
  have r := Machine.Reach.tail beforeAccept_reach (.accept (beforeAccept 4) 0 0 []
    (wireCmd (.reqImport 0 busA) ++ wireCmd askHandler) (some .unexpectedEof) rfl rfl)
  refine ⟨_, _, r, rfl, C91_server _ _ _ _ _ adder_behaves _ _ r, (C91_explained _ _ _ _ _ adder_behaves _ _ r).1, ?_⟩
  have ht : TidyLive adderEnv dev (Live.start [devA] adderWorld)
      [.connect 0, .arrive 0 (wireCmd (.reqImport 0 busA) ++ wireCmd askHandler), .hangup 0 .unexpectedEof] :=
    ⟨trivial, trivial, trivial, trivial⟩
  have h := (C91_reference _ _ _ _ _ adder_behaves _ _ r (by decide) ht 0).2.1
  have hc : (((Live.start [devA] adderWorld).run adderEnv dev
      [.connect 0, .arrive 0 (wireCmd (.reqImport 0 busA) ++ wireCmd askHandler), .hangup 0 .unexpectedEof]).server.clients 0).map
        (·.sent) = some [] := by decide +kernel
  obtain ⟨y, hy, hs⟩ := Option.map_eq_some_iff.mp hc
  have := (h y hy).1
  rw [hs] at this
  exact List.prefix_nil.mp this

end Usbip
