import Verif.Model.Whole
import Verif.Model.Listen
/-!
# src/lib.rs: everything together, with the accept loop

`Verif.Model.Whole` has tasks, locks, sockets and handler code that runs step by step, but connections just
appear.  `Verif.Model.Listen` has calls of `server` with their queues of clients, but whole loop iterations.
Here a process does all of it: while handler code runs for one connection and a reply leaves piece by piece on
another, clients connect and wait, say things before they are accepted, and are accepted.
-/

namespace Usbip

/-- A process with one `UsbIpServer` (src/lib.rs:43-46), and any number of calls of `server` on it
(src/lib.rs:526-549). -/
structure Machine {τ : Type} (code : Code τ) where
  whole : Whole code
  calls : Nat → Option Serving
  front : Nat → Dialled

/-- What can be seen of a step (a ghost).  src/lib.rs:356-549. -/
inductive MachineLabel (σ : Type) where
  | serve (k : Nat) (bound : Bool)
  | dial (k c : Nat)
  /-- `accept` returns a connection, with what the kernel has for it -/
  | accept (k c : Nat) (bytes : Bytes) (fin : Option ErrKind)
  | acceptErr (k : Nat)
  | dropServe (k : Nat)
  /-- bytes arrive for a connection that has not been accepted -/
  | early (c : Nat) (bytes : Bytes)
  /-- a client ends its side before its connection is accepted -/
  | earlyEnd (c : Nat) (e : ErrKind)
  | inner (lb : TcpLabel σ)

/-- One step.

`serve`: src/lib.rs:527-528.  `dial`, `refuse`: a client connects, and somebody is listening or not.  `accept`:
src/lib.rs:531-541, the task of the first connection in the kernel's queue is spawned, with the
socket as it is.  `acceptErr`: src/lib.rs:542-544, the error is logged and the loop goes on.  `dropServe`: the
future is dropped, which closes the listener; the tasks it has spawned are not its own
(src/lib.rs:536).  `early`, `earlyEnd`: what the kernel does for connections nobody has accepted.
`inner`: a step of the server's tasks, of the sockets, of handler code or of the application.
Simplification: shutting the runtime down is not one step here; it is the `dropServe` of all calls and the
dropping of all tasks, in some order. -/
inductive Machine.Step {τ} (code : Code τ) (env : Env (HandlerId → τ)) (p : Profile) :
    Machine code → Option (MachineLabel (HandlerId → τ)) → Machine code → Prop
  | serve (s : Machine code) (k : Nat) (bound : Bool) (hk : s.calls k = none) :
      Step code env p s (some (.serve k bound))
        { s with calls := upd s.calls k (some (if bound then .listening [] else .panicked)) }
  | dial (s : Machine code) (k c : Nat) (q : List Nat) (hk : s.calls k = some (.listening q))
      (hf : s.front c = .unknown) :
      Step code env p s (some (.dial k c))
        { s with calls := upd s.calls k (some (.listening (q ++ [c]))), front := upd s.front c (.waiting [] none) }
  | refuse (s : Machine code) (k c : Nat) (hk : ∀ q, s.calls k ≠ some (.listening q)) (hf : s.front c = .unknown) :
      Step code env p s (some (.dial k c)) { s with front := upd s.front c .refused }
  | accept (s : Machine code) (k c : Nat) (q : List Nat) (bs : Bytes) (fin : Option ErrKind)
      (hk : s.calls k = some (.listening (c :: q))) (hf : s.front c = .waiting bs fin) :
      Step code env p s (some (.accept k c bs fin))
        { whole := { s.whole with
            fine := { s.whole.fine with cfg := { s.whole.fine.cfg with
              conns := setConn s.whole.fine.cfg.conns c (Conn.new ⟨[], .unexpectedEof⟩) } }
            buf := upd s.whole.buf c bs
            ended := upd s.whole.ended c fin }
          calls := upd s.calls k (some (.listening q))
          front := upd s.front c .accepted }
  | acceptErr (s : Machine code) (k : Nat) (q : List Nat) (hk : s.calls k = some (.listening q)) :
      Step code env p s (some (.acceptErr k)) s
  | dropServe (s : Machine code) (k : Nat) (q : List Nat) (hk : s.calls k = some (.listening q)) :
      Step code env p s (some (.dropServe k))
        { s with calls := upd s.calls k (some .dropped), front := fun c => if c ∈ q then .refused else s.front c }
  | early (s : Machine code) (c : Nat) (b bs : Bytes) (hf : s.front c = .waiting b none) :
      Step code env p s (some (.early c bs)) { s with front := upd s.front c (.waiting (b ++ bs) none) }
  | earlyEnd (s : Machine code) (c : Nat) (b : Bytes) (e : ErrKind) (hf : s.front c = .waiting b none) :
      Step code env p s (some (.earlyEnd c e)) { s with front := upd s.front c (.waiting b (some e)) }
  | inner (s : Machine code) (lb : Option (TcpLabel (HandlerId → τ))) (w : Whole code)
      (st : Whole.Step code env p s.whole lb w) (hl : ∀ c i, lb ≠ some (.server (.outside (.connect c i)))) :
      Step code env p s (lb.map .inner) { s with whole := w }

/-- What can be reached, with the labels on the way.  Executions of src/lib.rs:356-549. -/
inductive Machine.Reach {τ} (code : Code τ) (env : Env (HandlerId → τ)) (p : Profile) (s0 : Machine code) :
    List (MachineLabel (HandlerId → τ)) → Machine code → Prop
  | refl : Reach code env p s0 [] s0
  | tail {ls s lb s'} (h : Reach code env p s0 ls s) (st : Machine.Step code env p s lb s') :
      Reach code env p s0 (ls ++ lb.toList) s'

/-- A process before any call of `server`.  src/lib.rs:50-55. -/
def Machine.init {τ} (code : Code τ) (devices : List Device) (w : World (HandlerId → τ)) : Machine code :=
  { whole := Whole.init code devices w, calls := fun _ => none, front := fun _ => .unknown }

end Usbip
