import Verif.Lemmas.WorkersSample
import Verif.Props.Machine
/-!
# Worker threads (C105)

From C91 on, what happens some time is stated for fair executions, in which a task that could go on does so.  Here that is derived
for a runtime with any number of worker threads, on which tasks block in a handler's mutex and in handler code.
-/

namespace Usbip
open Spec Samples

section
variable {τ : Type} (code : Code τ) (env : Env (HandlerId → τ)) (p : Profile) (devices : List Device)
  (w : World (HandlerId → τ)) (e : MachineExec code env p (Machine.init code devices w))

/-- C105: one worker thread is enough: if handler code returns, and no thread of the application keeps a handler's
mutex, clients go on receiving and `accept` does not fail for ever, then an execution on a runtime with at least one worker
thread is fair, although threads block in handlers' mutexes and in handler code. -/
theorem C105_fair (hb : Behaves code env) (hret : Returns code) (W : Nat) (hW : 0 < W) (on : Nat → Nat → Option Duty)
    (P : Pool e W on) (O : Outside e) : e.Fair :=
  pool_fair hb hret P O hW

/-- C105: in particular, a client that has connected to a call of `server` and has sent requests is accepted and gets
its answers, all of them and in order (C91), whatever the number of worker threads. -/
theorem C105_served (hb : Behaves code env) (hret : Returns code) (W : Nat) (hW : 0 < W) (on : Nat → Nat → Option Duty)
    (P : Pool e W on) (O : Outside e)
    (hno : ∀ n t f i m k, (e.state n).whole.fine.cfg.flights t = some f → f.ev = .removeDevice i → f.code ≠ .lock .used m k)
    (n k c : Nat) (q : List Nat) (hk : (e.state n).calls k = some (.listening q)) (hc : c ∈ q)
    (hd : ∀ m, n ≤ m → e.label m ≠ some (.dropServe k))
    (qs : List (Cmd × Bytes)) (hne : qs ≠ []) (hq : Requests p qs) (rest : Bytes) (fi : Option ErrKind)
    (hf : (e.state n).front c = .waiting ((qs.map (·.2)).flatten ++ rest) fi) :
    ∃ m y, n < m ∧ (e.state m).front c = .accepted ∧ (e.state m).whole.fine.cfg.conns c = some y ∧
      (e.state m).whole.fine.cfg.idle c ∧ (e.state m).whole.got c = y.output ∧
      ((AnswersAll p (Conn.new ⟨[], .unexpectedEof⟩) y (qs.map (·.1)) ∧ y.status = .running) ∨
        y.status = .panicked ∨ e.Faulted c m y) :=
  C91_served code env p devices w e hb hret (pool_fair hb hret P O hW) hno n k c q hk hc hd qs hne hq rest fi hf

/-- C105: that handler code returns is needed: once there are as many commands inside handler code for ever as there are
worker threads, nothing happens any more but steps of this handler code.  Nothing is read from any socket, no other
command goes on or is begun, nobody is accepted by any call of `server`. -/
theorem C105_stuck (hb : Behaves code env) (W : Nat) (on : Nat → Nat → Option Duty) (P : Pool e W on)
    (n : Nat) (ts : Fin W → Nat) (hts : Function.Injective ts)
    (hi : ∀ q m, n ≤ m → (e.state m).whole.fine.inside (ts q) ≠ none) :
    ∀ m (M : Move), n ≤ m → M.Made (e.state m) (e.label m) (e.state (m + 1)) → ∃ q, M = .prog (ts q) :=
  pool_stuck hb P hts hi

end

/-- C105_fair and C105_served for one worker thread, in an execution with handler code that adds up numbers: the thread
has the task of `server`, then the task of the client, then nothing to do. -/
example : ∃ (e : MachineExec adder adderEnv dev (Machine.init adder [devA] adderWorld)) (on : Nat → Nat → Option Duty),
    Pool e 1 on ∧ Outside e ∧ e.Fair ∧ on 0 0 = some (.serve 0) ∧ (∃ n, on n 0 = some (.conn 0)) ∧ (∃ n, on n 0 = none) ∧
    (e.state 4).front 0 = .waiting bothRequests (some .unexpectedEof) ∧
    ∃ m y, 4 < m ∧ (e.state m).front 0 = .accepted ∧ (e.state m).whole.fine.cfg.conns 0 = some y ∧
      (e.state m).whole.got 0 = y.output ∧
      ((AnswersAll dev (Conn.new ⟨[], .unexpectedEof⟩) y [.reqImport 0 busA, askHandler] ∧ y.status = .running) ∨
        y.status = .panicked ∨ e.Faulted 0 m y) := by
  obtain ⟨e, on, P, O, hno, h1, h2, h3, h4, h5, h6, _⟩ := servedByOne
  obtain ⟨m, y, k1, k2, k3, _, k4, k5⟩ := C105_served adder adderEnv dev [devA] adderWorld e adder_behaves adder_returns 1 (by decide)
    on P O hno 4 0 0 [0] h1 (by simp) (fun m _ => h3 m 0)
    [(.reqImport 0 busA, wireCmd (.reqImport 0 busA)), (askHandler, wireCmd askHandler)] (by simp) import_submit [] (some .unexpectedEof)
    (by rw [h2]; simp [bothRequests])
  exact ⟨e, on, P, O, C105_fair _ _ _ _ _ e adder_behaves adder_returns 1 (by decide) on P O, h4, h5, h6, h2, m, y, k1, k2, k3, k4, k5⟩

/-- C105_stuck for one worker thread and a handler that never returns: nobody is accepted any more, and what other
clients send is not read. -/
example : ∃ (e : MachineExec sleeper adderEnv dev (Machine.init sleeper [devA] adderWorld)) (on : Nat → Nat → Option Duty) (n : Nat),
    Pool e 1 on ∧ on 0 0 = some (.serve 0) ∧ on n 0 = some (.conn 0) ∧
    (∃ x, (e.state n).whole.fine.cfg.conns 0 = some x ∧ x.status = .running ∧ x.served.map (·.1) = [.reqImport 0 busA]) ∧
    (∀ m k c bs fin, n ≤ m → e.label m ≠ some (.accept k c bs fin)) ∧
    ∀ m c, n ≤ m → e.label m = some (.inner (.take c)) → (e.state (m + 1)).whole.buf c = (e.state m).whole.buf c := by
  obtain ⟨e, on, n, P, hi, hx, h1, h2⟩ := stuckWithOne
  have H := C105_stuck sleeper adderEnv dev [devA] adderWorld e sleeper_behaves 1 on P n (fun _ => 0)
    (fun a b _ => Subsingleton.elim a b) (fun _ m hm => hi m hm)
  refine ⟨e, on, n, P, h1, h2, hx, fun m k c bs fin hm h => ?_, fun m c hm h => Classical.byContradiction fun hne => ?_⟩
  · obtain ⟨_, h'⟩ := H m (.accept k) hm (.inl ⟨c, bs, fin, h⟩); cases h'
  · obtain ⟨_, h'⟩ := H m (.read c) hm ⟨h, hne⟩; cases h'

end Usbip
