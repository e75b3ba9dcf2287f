import Verif.Model.Network
import Verif.Model.Locks
/-!
# src/lib.rs: `server`, the accept loop

In `Verif.Model.Network` connections just appear.  Here they come through calls of `server`
(src/lib.rs:526-549), any number of them on the same `UsbIpServer`: a listening socket with the
kernel's queue of connections that have not been accepted, and a loop around `accept`.
-/

namespace Usbip

/-- What has become of a call of `server` (src/lib.rs:527-549).  There is no `returned`: the loop has
no way out.  `listening q`: `q` is the kernel's queue of the socket, the oldest connection first. -/
inductive Serving where
  | listening (q : List Nat)
  /-- `bind(..).expect(..)` panicked (src/lib.rs:528) -/
  | panicked
  /-- the future was dropped, or its task aborted; the listener is closed -/
  | dropped
  deriving DecidableEq, Repr

/-- A client, as the kernel sees it.  One that may be returned by `accept` (src/lib.rs:532). -/
inductive Dialled where
  | unknown
  /-- connected, not accepted yet: what has arrived, and whether the client has ended its side -/
  | waiting (bytes : Bytes) (fin : Option ErrKind)
  | accepted
  /-- nobody was listening, or the listener was closed before the connection was accepted -/
  | refused
  deriving DecidableEq, Repr

/-- A process with one `UsbIpServer`.  src/lib.rs:43-46, shared by every call of `server`
(src/lib.rs:527-549). -/
structure Proc (σ : Type) where
  net : Net σ
  calls : Nat → Option Serving
  front : Nat → Dialled

/-- What can happen next.  src/lib.rs:356-549. -/
inductive ProcEvent (σ : Type) where
  /-- the application calls `server`; `bind` succeeds or not (src/lib.rs:528) -/
  | serve (k : Nat) (bound : Bool)
  /-- a client connects to the address of a call of `server` -/
  | dial (k c : Nat)
  /-- `accept` returns a connection (src/lib.rs:533-541) -/
  | acceptOk (k : Nat)
  /-- `accept` returns an error (src/lib.rs:542-544) -/
  | acceptErr (k : Nat)
  | dropServe (k : Nat)
  /-- the runtime is shut down: all tasks are dropped -/
  | shutdown
  | arrive (c : Nat) (bytes : Bytes)
  | hangup (c : Nat) (e : ErrKind)
  | iterate (c : Nat) (w : WriteRes)
  | cancel (c : Nat)
  | addDevice (d : Device)
  | removeDevice (busId : Bytes)
  | user (f : σ → σ) (crash : Option HandlerId := none)

/-- A task is dropped.  The task spawned at src/lib.rs:536-539, when its runtime is shut down:
src/lib.rs:394-401 does not run. -/
def Conn.drop (x : Conn) : Conn := if x.status = .running then { x with status := .cancelled } else x

/-- src/lib.rs:533-541: the connection's task is spawned, with the socket as it is. -/
def Net.accept {σ} (n : Net σ) (c : Nat) (bytes : Bytes) (fin : Option ErrKind) : Net σ :=
  { sys := { n.sys with conns := setConn n.sys.conns c (Conn.new ⟨bytes, fin.getD .unexpectedEof⟩) }
    ended := fun c' => if c' = c then fin else n.ended c' }

/-- One step.  An error of `accept` is logged and the loop goes on (src/lib.rs:542-544).  The tasks of
accepted connections are spawned, they do not belong to the call (src/lib.rs:536): dropping it
closes the listener only.  A shutdown drops the calls of `server` and the tasks; simplification: tasks
in the middle of an iteration are dropped by `iterate c (.cut n)` or `cancel c` before it.  Events that
cannot happen leave the state unchanged. -/
def Proc.step {σ} (env : Env σ) (p : Profile) (s : Proc σ) : ProcEvent σ → Proc σ
  | .serve k bound =>
    match s.calls k with
    | none => { s with calls := upd s.calls k (some (if bound then .listening [] else .panicked)) }
    | some _ => s
  | .dial k c =>
    match s.calls k, s.front c with
    | some (.listening q), .unknown =>
      { s with calls := upd s.calls k (some (.listening (q ++ [c]))), front := upd s.front c (.waiting [] none) }
    | _, .unknown => { s with front := upd s.front c .refused }
    | _, _ => s
  | .acceptOk k =>
    match s.calls k with
    | some (.listening (c :: q)) =>
      match s.front c with
      | .waiting bs e =>
        { net := s.net.accept c bs e, calls := upd s.calls k (some (.listening q)), front := upd s.front c .accepted }
      | _ => s
    | _ => s
  | .acceptErr _ => s
  | .dropServe k =>
    match s.calls k with
    | some (.listening q) =>
      { s with calls := upd s.calls k (some .dropped), front := fun c => if c ∈ q then .refused else s.front c }
    | _ => s
  | .shutdown =>
    { net := { s.net with sys := { s.net.sys with conns := fun c => (s.net.sys.conns c).map Conn.drop } }
      calls := fun k => (s.calls k).map (fun a => match a with | .listening _ => .dropped | a => a)
      front := fun c => match s.front c with | .waiting _ _ => .refused | a => a }
  | .arrive c bs =>
    match s.front c with
    | .waiting b none => { s with front := upd s.front c (.waiting (b ++ bs) none) }
    | .accepted => { s with net := s.net.step env p (.arrive c bs) }
    | _ => s
  | .hangup c e =>
    match s.front c with
    | .waiting b none => { s with front := upd s.front c (.waiting b (some e)) }
    | .accepted => { s with net := s.net.step env p (.hangup c e) }
    | _ => s
  | .iterate c w => { s with net := s.net.step env p (.iterate c w) }
  | .cancel c => { s with net := s.net.step env p (.cancel c) }
  | .addDevice d => { s with net := s.net.step env p (.addDevice d) }
  | .removeDevice id => { s with net := s.net.step env p (.removeDevice id) }
  | .user f crash => { s with net := s.net.step env p (.user f crash) }

/-- Before any call of `server`.  src/lib.rs:50-55. -/
def Proc.init {σ} (devices : List Device) (w : World σ) : Proc σ :=
  { net := Net.init devices w, calls := fun _ => none, front := fun _ => .unknown }

/-- A whole history.  src/lib.rs:386-549. -/
def Proc.run {σ} (env : Env σ) (p : Profile) (s : Proc σ) (es : List (ProcEvent σ)) : Proc σ :=
  es.foldl (Proc.step env p) s

end Usbip
