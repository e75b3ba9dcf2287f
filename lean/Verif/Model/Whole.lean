import Verif.Model.Mutex
import Verif.Model.Sockets
/-!
# src/lib.rs: tasks, locks, sockets and handler code together

`Verif.Model.Sockets` has the server's tasks, its locks and its sockets, with a handler invocation
as one step.  `Verif.Model.Mutex` has handler code that runs step by step behind the handlers'
mutexes, with connections whose whole input is there from the start.  Here all of it is together:
while handler code runs for one connection, bytes arrive and replies leave piece by piece on others,
other handlers run, the application uses handler objects, tasks are dropped.
-/

namespace Usbip
open Spec

/-- Everything: tasks, locks, tables, handler objects and who is using them (`fine`,
src/lib.rs:43-46), and the sockets (as in `Tcp`). -/
structure Whole {τ : Type} (code : Code τ) where
  fine : Fine code
  buf : Nat → Bytes
  ended : Nat → Option ErrKind
  got : Nat → Bytes

/-- The same without the users of handler objects.  src/lib.rs:356-549 without src/device.rs:471-524. -/
def Whole.tcp {τ} {code : Code τ} (s : Whole code) : Tcp (HandlerId → τ) :=
  { cfg := s.fine.cfg, buf := s.buf, ended := s.ended, got := s.got }

/-- The label of a step of the program at its handler call (src/lib.rs:485), or of the application. -/
def ofHandlers {σ} : Option (Label σ) → Prop
  | none => True
  | some (.effect _ _) => True
  | some (.outside (.user _ _)) => True
  | _ => False

/-- One step.  `socket`: as in `Tcp.Step`, whatever is not the effect of an operation and not the application's
use of handlers.  A program that is inside handler code does nothing else, and cannot be dropped
(no await).  `handler`: as in `Fine.Step`, an operation takes effect, through
handler code or without (the latter is `Fine.Step.outer`), or somebody gets on with using a handler object. 
src/lib.rs:356-549 for `socket`, src/device.rs:471-524 for the rest. -/
inductive Whole.Step {τ} (code : Code τ) (env : Env (HandlerId → τ)) (p : Profile) :
    Whole code → Option (TcpLabel (HandlerId → τ)) → Whole code → Prop
  | socket (s : Whole code) (lb) (a : Tcp (HandlerId → τ)) (st : Tcp.Step env p s.tcp lb a)
      (hl : ∀ l, lb = .server l → ¬ ofHandlers (some l))
      (ho : ∀ l t, lb = .server l → prog l = some t → s.fine.inside t = none) :
      Step code env p s (some lb)
        { fine := { s.fine with cfg := a.cfg }, buf := a.buf, ended := a.ended, got := a.got }
  | handler (s : Whole code) (lb) (f : Fine code) (st : Fine.Step code env p s.fine lb f) (hl : ofHandlers lb) :
      Step code env p s (lb.map .server) { s with fine := f }

/-- What can be reached, with the labels on the way.  Executions of src/lib.rs:356-549 with
src/device.rs:471-524. -/
inductive Whole.Reach {τ} (code : Code τ) (env : Env (HandlerId → τ)) (p : Profile) (s0 : Whole code) :
    List (TcpLabel (HandlerId → τ)) → Whole code → Prop
  | refl : Reach code env p s0 [] s0
  | tail {ls s lb s'} (h : Reach code env p s0 ls s) (st : Whole.Step code env p s lb s') :
      Reach code env p s0 (ls ++ lb.toList) s'

/-- A server before any connection.  src/lib.rs:50-55. -/
def Whole.init {τ} (code : Code τ) (devices : List Device) (w : World (HandlerId → τ)) : Whole code :=
  { fine := Fine.init code devices w, buf := fun _ => [], ended := fun _ => none, got := fun _ => [] }

end Usbip
