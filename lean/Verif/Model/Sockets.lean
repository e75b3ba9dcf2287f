import Verif.Model.Locks
import Verif.Model.Network
/-!
# src/lib.rs: the server at the level of locks, on sockets that work piece by piece

`Verif.Model.Locks` has all interleavings of the server's tasks, but gives a connection all its
input from the start and its replies in one piece.  `Verif.Model.Network` has input that arrives
over time, but whole loop iterations.  Here both are together: bytes arrive at any moment, also
while a command of the same connection is being worked on; a task reads what has arrived when it
is scheduled; a reply goes out in pieces, as the client makes room, with the task's locks held.
-/

namespace Usbip

/-- What a program that has only to send and to release its locks will leave of its connection. 
src/lib.rs:423-424, 454, 507, 519 to the end of the iteration. -/
def Task.final {σ} : Task σ → Option Conn
  | .done x => x.conn?
  | .unlock _ k => k.final
  | _ => none

/-- The server with its tasks and locks, and the sockets.  `cfg.conns c` has as `input` what the
connection's task has taken from its socket and not yet used; its `fin` is without meaning. 
src/lib.rs:43-46, and the sockets of src/lib.rs:532-533. -/
structure Tcp (σ : Type) where
  cfg : Cfg σ
  /-- bytes that have arrived and have not been taken by the task -/
  buf : Nat → Bytes
  /-- the client has ended its side, or the socket has failed: what reads report after the bytes -/
  ended : Nat → Option ErrKind
  /-- what the client has received -/
  got : Nat → Bytes

/-- What can be seen of a step (a ghost).  src/lib.rs:356-549. -/
inductive TcpLabel (σ : Type) where
  | arrive (c : Nat) (bytes : Bytes)
  | hangup (c : Nat) (e : ErrKind)
  /-- the task takes bytes from its socket -/
  | take (c : Nat)
  /-- the client receives a piece of a reply -/
  | piece (c : Nat) (bytes : Bytes)
  | server (lb : Label σ)

/-- One step.

`connect`: src/lib.rs:531-537.  `arrive`, `hangup`: the client's doing.  `take`: the task polls its
socket and gets some of what is there.  `iterate`: `read_from_socket` (src/lib.rs:392) returns,
with a command or with the refusal of one, since enough has been taken; `iterateEnd`: it returns
since the socket reports its end.  `piece`: `write_all` (src/usbip_protocol.rs:420-422) hands over
some bytes of the reply.  `sent`: `write_all` returns; how it went (`WriteRes`) was named when the
iteration started, so the reply ends with the last byte that is sent.  `other`: any other step of
a task or of the application. -/
inductive Tcp.Step {σ} (env : Env σ) (p : Profile) : Tcp σ → TcpLabel σ → Tcp σ → Prop
  | connect (s : Tcp σ) (c : Nat) (h : s.cfg.conns c = none) :
      Step env p s (.server (.outside (.connect c ⟨[], .unexpectedEof⟩)))
        { s with cfg := { s.cfg with conns := setConn s.cfg.conns c (Conn.new ⟨[], .unexpectedEof⟩) } }
  | arrive (s : Tcp σ) (c : Nat) (bs : Bytes) (h : s.cfg.conns c ≠ none) (he : s.ended c = none) :
      Step env p s (.arrive c bs) { s with buf := upd s.buf c (s.buf c ++ bs) }
  | hangup (s : Tcp σ) (c : Nat) (e : ErrKind) (h : s.cfg.conns c ≠ none) (he : s.ended c = none) :
      Step env p s (.hangup c e) { s with ended := upd s.ended c (some e) }
  | take (s : Tcp σ) (c : Nat) (x : Conn) (bs rest : Bytes) (hc : s.cfg.conns c = some x)
      (hi : s.cfg.idle c) (hb : s.buf c = bs ++ rest) :
      Step env p s (.take c) { s with
        cfg := { s.cfg with conns := setConn s.cfg.conns c { x with input := ⟨x.input.bytes ++ bs, x.input.fin⟩ } }
        buf := upd s.buf c rest }
  | iterate (s : Tcp σ) (t c : Nat) (w : WriteRes) (x : Conn) (ht : s.cfg.flights t = none)
      (hc : s.cfg.conns c = some x) (hr : x.status = .running) (hi : s.cfg.idle c)
      (hd : (readCommand p : Rd Arrived Cmd) ⟨x.input.bytes⟩ ≠ .diverge) :
      Step env p s (.server (.start t (.iterate c w))) { s with
        cfg := s.cfg.put t (some (Flight.start (.iterate c w) (some c) (iterTask env p x w))) }
  | iterateEnd (s : Tcp σ) (t c : Nat) (w : WriteRes) (x : Conn) (e : ErrKind) (ht : s.cfg.flights t = none)
      (hc : s.cfg.conns c = some x) (hr : x.status = .running) (hi : s.cfg.idle c)
      (he : s.ended c = some e) (hb : s.buf c = []) :
      Step env p s (.server (.start t (.iterate c w))) { s with
        cfg := s.cfg.put t (some (Flight.start (.iterate c w) (some c)
          (iterTask env p { x with input := ⟨x.input.bytes, e⟩ } w))) }
  | piece (s : Tcp σ) (t c : Nat) (f : Flight σ) (k : Task σ) (y : Conn) (bs : Bytes)
      (ht : s.cfg.flights t = some f) (ho : f.owner = some c) (hk : f.code = .send k)
      (hy : k.final = some y) (hp : s.got c ++ bs <+: y.output) :
      Step env p s (.piece c bs) { s with got := upd s.got c (s.got c ++ bs) }
  | sent (s : Tcp σ) (t c : Nat) (f : Flight σ) (k : Task σ) (y : Conn)
      (ht : s.cfg.flights t = some f) (ho : f.owner = some c) (hk : f.code = .send k)
      (hy : k.final = some y) (hp : s.got c = y.output) :
      Step env p s (.server (.inner t)) { s with cfg := s.cfg.put t (some { f with code := k }) }
  | other (s : Tcp σ) (lb : Label σ) (cfg' : Cfg σ) (st : Cfg.Step env p s.cfg lb cfg')
      (h1 : ∀ c i, lb ≠ .outside (.connect c i)) (h2 : ∀ t c w, lb ≠ .start t (.iterate c w))
      (h3 : ∀ t f k, lb = .inner t → s.cfg.flights t = some f → f.code ≠ .send k) :
      Step env p s (.server lb) { s with cfg := cfg' }

/-- What can be reached, with the labels on the way.  Executions of src/lib.rs:356-549. -/
inductive Tcp.Reach {σ} (env : Env σ) (p : Profile) (s0 : Tcp σ) : List (TcpLabel σ) → Tcp σ → Prop
  | refl : Reach env p s0 [] s0
  | tail {ls s lb s'} (h : Reach env p s0 ls s) (st : Tcp.Step env p s lb s') :
      Reach env p s0 (ls ++ [lb]) s'

/-- A server before any connection.  src/lib.rs:50-55. -/
def Tcp.init {σ} (devices : List Device) (w : World σ) : Tcp σ :=
  { cfg := Cfg.init devices w, buf := fun _ => [], ended := fun _ => none, got := fun _ => [] }

end Usbip
