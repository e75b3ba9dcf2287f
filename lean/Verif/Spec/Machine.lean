import Verif.Model.Machine
import Verif.Spec.WholeLive
import Verif.Spec.Listen
import Verif.Spec.Sockets
/-!
# Specification: a process with calls of `server`, at the level of locks, sockets and handler code
-/

namespace Usbip.Spec
open Usbip

/-- What a step is for the server: a connection that is accepted appears, and what the kernel has for it arrives. -/
def toServer {σ} : MachineLabel σ → List (TcpLabel σ)
  | .accept _ c bs fin => .server (.outside (.connect c ⟨[], .unexpectedEof⟩)) :: .arrive c bs :: (fin.map (.hangup c)).toList
  | .inner lb => [lb]
  | _ => []

/-- A step of the server, as it is without calls of `server`: a client that is accepted has just connected. -/
def asServer {σ} : MachineLabel σ → Option (TcpLabel σ)
  | .accept _ c _ _ => some (.server (.outside (.connect c ⟨[], .unexpectedEof⟩)))
  | .inner lb => some lb
  | _ => none

/-- What happens in a step inside the server, for somebody outside.  (Connections appear by `accept`.) -/
def fromNet {σ} : NetEvent σ → Option (ProcEvent σ)
  | .connect _ => none
  | .arrive c bs => some (.arrive c bs)
  | .hangup c e => some (.hangup c e)
  | .iterate c w => some (.iterate c w)
  | .cancel c => some (.cancel c)
  | .addDevice d => some (.addDevice d)
  | .removeDevice i => some (.removeDevice i)
  | .user f crash => some (.user f crash)

/-- What happens in a step, seen from outside. -/
def machineEvent {σ} : MachineLabel σ → Option (ProcEvent σ)
  | .serve k b => some (.serve k b)
  | .dial k c => some (.dial k c)
  | .accept k _ _ _ => some (.acceptOk k)
  | .acceptErr k => some (.acceptErr k)
  | .dropServe k => some (.dropServe k)
  | .early c bs => some (.arrive c bs)
  | .earlyEnd c e => some (.hangup c e)
  | .inner lb => (tcpEvent lb).bind fromNet

/-- The step inside the server. -/
def inServer {σ} : Option (MachineLabel σ) → Option (TcpLabel σ)
  | some (.inner lb) => some lb
  | _ => none

/-- An infinite execution; it may come to rest. -/
structure MachineExec {τ} (code : Code τ) (env : Env (HandlerId → τ)) (p : Profile) (s0 : Machine code) where
  state : Nat → Machine code
  label : Nat → Option (MachineLabel (HandlerId → τ))
  init : state 0 = s0
  step : ∀ n, Machine.Step code env p (state n) (label n) (state (n + 1)) ∨ (label n = none ∧ state (n + 1) = state n)

/-- A fair execution.  `tasks`, `mutexes`, `apps`, `reads`, `loops`, `clients`: as in `WholeExec.Fair`.  `accepts`: a
call of `server` that has a client waiting accepts somebody some time (its task is scheduled, and `accept` does
not fail for ever). -/
structure MachineExec.Fair {τ} {code : Code τ} {env : Env (HandlerId → τ)} {p : Profile} {s0 : Machine code}
    (e : MachineExec code env p s0) : Prop where
  tasks : ∀ t n, ∃ m, n ≤ m ∧ (Acts t (e.state m).whole (inServer (e.label m)) (e.state (m + 1)).whole ∨
    ¬ ∃ lb s', Whole.Step code env p (e.state m).whole lb s' ∧ Acts t (e.state m).whole lb s')
  mutexes : ∀ t n, (∀ m, n ≤ m → (e.state m).whole.fine.inside t = none ∧
      ∃ f g k, (e.state m).whole.fine.cfg.flights t = some f ∧ f.code = .commit g k) →
    (∀ m, n ≤ m → ∃ m', m ≤ m' ∧ ∃ lb s', Whole.Step code env p (e.state m').whole lb s' ∧ Acts t (e.state m').whole lb s') →
    ∃ m, n ≤ m ∧ Acts t (e.state m).whole (inServer (e.label m)) (e.state (m + 1)).whole
  apps : ∀ a n, ∃ m, n ≤ m ∧ (e.state m).whole.fine.app a = none
  reads : ∀ c n, ∃ m, n ≤ m ∧
    ((e.label m = some (.inner (.take c)) ∧ (e.state (m + 1)).whole.buf c ≠ (e.state m).whole.buf c) ∨
    ¬ ∃ s', Whole.Step code env p (e.state m).whole (some (.take c)) s' ∧ s'.buf c ≠ (e.state m).whole.buf c)
  loops : ∀ c n, ∃ m, n ≤ m ∧ ((∃ t w, e.label m = some (.inner (.server (.start t (.iterate c w))))) ∨
    ¬ ∃ t w s', Whole.Step code env p (e.state m).whole (some (.server (.start t (.iterate c w)))) s')
  clients : ∀ c n, ∃ m, n ≤ m ∧ ((∃ b bs, e.label m = some (.inner (.piece c (b :: bs)))) ∨
    ¬ ∃ b s', Whole.Step code env p (e.state m).whole (some (.piece c [b])) s')
  accepts : ∀ k n, ∃ m, n ≤ m ∧ ((∃ c bs fin, e.label m = some (.accept k c bs fin)) ∨
    ¬ ∃ c q, (e.state m).calls k = some (.listening (c :: q)))

/-- Before time `m` something went wrong on connection `c` outside of the server, which has ended it. -/
def MachineExec.Faulted {τ} {code : Code τ} {env : Env (HandlerId → τ)} {p : Profile} {s0 : Machine code}
    (e : MachineExec code env p s0) (c m : Nat) (y : Conn) : Prop :=
  y.status ≠ .running ∧ ∃ k lb, k < m ∧ e.label k = some (.inner lb) ∧ Fault c lb

end Usbip.Spec
