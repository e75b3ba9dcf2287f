import Verif.Model.Sockets
import Verif.Spec.Locks
import Verif.Spec.Wire
/-!
# Specification: executions on sockets that go on for ever
-/

namespace Usbip.Spec

open Usbip

/-- An execution that goes on for ever. -/
structure TcpExec {σ} (env : Env σ) (p : Profile) (s0 : Tcp σ) where
  state : Nat → Tcp σ
  label : Nat → TcpLabel σ
  init : state 0 = s0
  step : ∀ n, Tcp.Step env p (state n) (label n) (state (n + 1))

/-- A fair execution: none of the following is possible from some point on without ever happening.

`tasks`: an operation in progress gets further (tasks are scheduled, handlers return, a lock that is
free is given to the first who waits for it, `write_all` returns when everything is written).
`reads`: a connection's task takes bytes that have arrived.  `loops`: `read_from_socket` returns on a
connection between commands.  `clients`: a client receives at least one byte of the reply that is
being sent to it, if it is one of `C`. -/
structure TcpExec.FairFor {σ} {env : Env σ} {p : Profile} {s0 : Tcp σ} (e : TcpExec env p s0) (C : Nat → Prop) : Prop where
  tasks : ∀ t n, ∃ m, n ≤ m ∧ ((∃ lb, e.label m = .server lb ∧ prog lb = some t) ∨
    ¬ ∃ lb s', Tcp.Step env p (e.state m) (.server lb) s' ∧ Advances lb ∧ prog lb = some t)
  reads : ∀ c n, ∃ m, n ≤ m ∧ ((e.label m = .take c ∧ (e.state (m + 1)).buf c ≠ (e.state m).buf c) ∨
    ¬ ∃ s', Tcp.Step env p (e.state m) (.take c) s' ∧ s'.buf c ≠ (e.state m).buf c)
  loops : ∀ c n, ∃ m, n ≤ m ∧ ((∃ t w, e.label m = .server (.start t (.iterate c w))) ∨
    ¬ ∃ t w s', Tcp.Step env p (e.state m) (.server (.start t (.iterate c w))) s')
  clients : ∀ c, C c → ∀ n, ∃ m, n ≤ m ∧ ((∃ b bs, e.label m = .piece c (b :: bs)) ∨
    ¬ ∃ b s', Tcp.Step env p (e.state m) (.piece c [b]) s')

/-- Every client goes on reading. -/
abbrev TcpExec.Fair {σ} {env : Env σ} {p : Profile} {s0 : Tcp σ} (e : TcpExec env p s0) : Prop :=
  e.FairFor (fun _ => True)

/-- Something goes wrong on connection `c` that is not the server's doing: its task is dropped, or
writing to its socket fails. -/
def Fault {σ} (c : Nat) : TcpLabel σ → Prop
  | .server (.start _ (.iterate c' w)) => c' = c ∧ w ≠ .full
  | .server (.dropped _ o) => o = some c
  | .server (.outside (.cancel c')) => c' = c
  | _ => False

/-- `y` is `x` with one more request answered: command `cmd` was answered by `resp`. -/
def AnswersNext (p : Profile) (x y : Conn) (cmd : Cmd) (resp : Resp) : Prop :=
  y.status = .running ∧ y.served = x.served ++ [(cmd, resp)] ∧
  ∃ bytes, resp.toBytes p = .ok bytes ∧ y.output = x.output ++ bytes

/-- The connection is over: it holds no device any more, or its task panicked. -/
def Over (y : Conn) : Prop :=
  y.status = .panicked ∨ (y.current = none ∧ (y.status = .closed ∨ ∃ e, y.status = .failed e))

/-- Before time `m` something went wrong on connection `c` outside of the server, which has ended it. -/
def Faulted {σ} {env : Env σ} {p : Profile} {s0 : Tcp σ} (e : TcpExec env p s0) (c m : Nat) (y : Conn) : Prop :=
  y.status ≠ .running ∧ ∃ k, k < m ∧ Fault c (e.label k)

/-- Commands, each with a packet that is one for it. -/
def Requests (p : Profile) (qs : List (Cmd × Bytes)) : Prop :=
  ∀ q ∈ qs, WellFormed p.debugAssertions q.1 ∧ PacketFor q.1 q.2

/-- `y` is `x` after the commands were answered, in their order, by one response each: the responses
were recorded, and their bytes were put on the wire. -/
def AnswersAll (p : Profile) (x y : Conn) (cmds : List Cmd) : Prop :=
  ∃ (resps : List Resp) (bytes : List Bytes), resps.length = cmds.length ∧ y.served = x.served ++ cmds.zip resps ∧
    resps.map (·.toBytes p) = bytes.map .ok ∧ y.output = x.output ++ bytes.flatten

/-- No request of the server's protocol starts with what `bs` starts with, or it has not arrived in full. -/
def NoRequest (p : Profile) (bs : Bytes) : Prop :=
  ∀ cmd packet rest, WellFormed p.debugAssertions cmd → PacketFor cmd packet → bs ≠ packet ++ rest

end Usbip.Spec
