import Verif.Model.Sockets
import Verif.Spec.Network
/-!
# Specification: the server with its tasks, locks and sockets, seen from outside
-/

namespace Usbip.Spec

open Usbip

/-- A server event, without what the client will send. -/
def live {σ} : Event σ → NetEvent σ
  | .connect c _ => .connect c
  | .iterate c w => .iterate c w
  | .cancel c => .cancel c
  | .addDevice d => .addDevice d
  | .removeDevice i => .removeDevice i
  | .user f crash => .user f crash

/-- What happens in a step, seen from outside: bytes arriving, a client ending, an operation taking
effect. -/
def tcpEvent {σ} : TcpLabel σ → Option (NetEvent σ)
  | .arrive c bs => some (.arrive c bs)
  | .hangup c e => some (.hangup c e)
  | .take _ => none
  | .piece _ _ => none
  | .server lb => lb.event.map live

/-- What has been sent to a connection's client, by a server on which nothing is in progress. -/
def sentTo {σ} (n : Net σ) (c : Nat) : Bytes :=
  match n.sys.conns c with
  | none => []
  | some x => x.output

/-- The same server label, without what the client will send. -/
def bare {σ} : Label σ → Label σ
  | .outside (.connect c _) => .outside (.connect c ⟨[], .unexpectedEof⟩)
  | lb => lb

/-- The steps of the server's tasks among all steps. -/
def serverStep {σ} : TcpLabel σ → Option (Label σ)
  | .server lb => some lb
  | _ => none

/-- The same end, for a connection on which `more` will arrive later. -/
def hearEnd (more : Stream) : Ended → Ended
  | .conn x => .conn (awaiting x more)
  | .call r => .call r

/-- The same program, for a connection on which `more` will arrive later. -/
def hear {σ} (more : Stream) : Task σ → Task σ
  | .done x => .done (hearEnd more x)
  | .lock l m k => .lock l m (hear more k)
  | .unlock l k => .unlock l (hear more k)
  | .getUsed k => .getUsed (fun v => hear more (k v))
  | .getAvail k => .getAvail (fun v => hear more (k v))
  | .putUsed v k => .putUsed v (hear more k)
  | .putAvail v k => .putAvail v (hear more k)
  | .commit f k => .commit f (fun w => hear more (k w))
  | .send k => .send (hear more k)

/-- The same program in flight, for connections on which `more` will arrive later. -/
def hearFlight {σ} (more : Nat → Stream) (f : Flight σ) : Flight σ :=
  match f.owner with
  | none => f
  | some c => { f with code := hear (more c) f.code }

/-- The same tasks, locks and tables, where on each connection `more` will arrive later. -/
def hearing {σ} (more : Nat → Stream) (s : Cfg σ) : Cfg σ :=
  { s with
    conns := fun c => (s.conns c).map (awaiting · (more c))
    flights := fun t => (s.flights t).map (hearFlight more) }

/-- What is in a connection's socket and what follows it. -/
def inSocket {σ} (s : Tcp σ) (fut : Nat → Stream) (c : Nat) : Stream := ⟨s.buf c ++ (fut c).bytes, (fut c).fin⟩

end Usbip.Spec
