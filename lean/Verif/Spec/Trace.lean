import Verif.Spec.Hosted
/-!
# Specification: what the handlers do over a whole history
-/

namespace Usbip.Spec

open Usbip

/-- The handler invocation a submit leads to: none if it asks for none or the handler has panicked
before. -/
def Job.invocation {σ} (w : World σ) (j : Job) : Option HCall :=
  match j.call with
  | some c => if crashed w c.target then none else some c
  | none => none

/-- What happens to the handlers' state: the application acts on it, or a handler is invoked. -/
inductive Act (σ : Type) where
  | user (f : σ → σ)
  | call (c : HCall)

/-- Seen in one step: what happens to the handlers' state, and what is sent if it was an invocation. -/
def witness {σ} (env : Env σ) (p : Profile) (s : Sys σ) (e : Event σ) : Option (Act σ × Option Sent) :=
  match e with
  | .user f _ => some (.user f, none)
  | .iterate c w =>
    match job p s c with
    | some j =>
      match endpointAt j.device j.address, j.invocation s.shared.world with
      | some (ep, _), some call =>
        some (.call call, some ⟨ep, j.header.direction, w, newlySent s (s.step env p e) c⟩)
      | _, _ => none
    | none => none
  | _ => none

/-- Seen in a whole history, over all connections, in the order of execution. -/
def trace {σ} (env : Env σ) (p : Profile) : Sys σ → List (Event σ) → List (Act σ × Option Sent)
  | _, [] => []
  | s, e :: es => (witness env p s e).toList ++ trace env p (s.step env p e) es

/-- The handlers on their own: the answers to the invocations, and the final state. -/
def perform {σ} (env : Env σ) : σ → List (Act σ) → List HRes × σ
  | u, [] => ([], u)
  | u, .user f :: as => perform env (f u) as
  | u, .call c :: as =>
    ((c.answer env u).1 :: (perform env (c.answer env u).2 as).1, (perform env (c.answer env u).2 as).2)

/-! ## A shared libusb device -/

/-- What happens to a shared device: it acts by itself, libusb is called, or one of its handlers is invoked for an
isochronous transfer, for which libusb is not called. -/
inductive HostOp (α : Type) where
  | app (a : α)
  | lib (c : LibCall)
  | idle

/-- The handlers of the shared device. -/
def hostHandler (ifs devs : Nat → Bool) : HandlerId → Bool
  | .iface h => ifs h
  | .dev h => devs h

/-- What a handler invocation means to the shared device, if the handler belongs to it (interface handlers `ifs`,
device handlers `devs`). -/
def hostOp {α} (ifs devs : Nat → Bool) : HCall → Option (HostOp α)
  | .iface h _ ep len setup data =>
    if ifs h then some (match ifaceCall ep len setup data with | some l => .lib l | none => .idle) else none
  | .dev h len setup data => if devs h then some (.lib (devCall len setup data)) else none

/-- Seen in one step of a server sharing a device. -/
def hostWitness {σ τ α} (env : Env (σ × τ)) (act : α → τ → τ) (ifs devs : Nat → Bool) (p : Profile)
    (s : Sys (σ × τ)) (e : HostedEvent σ α) : Option (HostOp α × Option Sent) :=
  match e with
  | .app a => some (.app a, none)
  | .server _ =>
    match witness env p s (e.event act) with
    | some (.call c, o) => (hostOp ifs devs c).map (fun x => (x, o))
    | _ => none

/-- Seen in a whole history. -/
def hostTrace {σ τ α} (env : Env (σ × τ)) (act : α → τ → τ) (ifs devs : Nat → Bool) (p : Profile) :
    Sys (σ × τ) → List (HostedEvent σ α) → List (HostOp α × Option Sent)
  | _, [] => []
  | s, e :: es => (hostWitness env act ifs devs p s e).toList ++
      hostTrace env act ifs devs p (s.step env p (e.event act)) es

/-- The host device on its own: what libusb read at each invocation, and the final state. -/
def libRun {τ α} (lib : RusbLib τ) (act : α → τ → τ) : τ → List (HostOp α) → List Bytes × τ
  | t, [] => ([], t)
  | t, .app a :: ops => libRun lib act (act a t) ops
  | t, .idle :: ops => ([] :: (libRun lib act t ops).1, (libRun lib act t ops).2)
  | t, .lib c :: ops =>
    (readBytes (c.answer lib t) :: (libRun lib act (c.after lib t) ops).1, (libRun lib act (c.after lib t) ops).2)

/-- The libusb calls among what happened. -/
def libCalls {α} (ops : List (HostOp α)) : List LibCall :=
  ops.filterMap (fun | .lib c => some c | _ => none)

/-- The same for a library that need not be honest: the answers of the handlers, and finally the device, the calls
made (added to `log`), and whether the device is dead.  It is dead once the library has claimed to have read more
than it was asked for: then every handler panics, and the library is not called any more. -/
def hostRun {τ α} (lib : RusbLib τ) (act : α → τ → τ) : τ × List LibCall × Bool → List (HostOp α) →
    List HRes × (τ × List LibCall × Bool)
  | s, [] => ([], s)
  | (t, log, dead), .app a :: ops => hostRun lib act (act a t, log, dead) ops
  | (t, log, true), .lib _ :: ops =>
    (.panic :: (hostRun lib act (t, log, true) ops).1, (hostRun lib act (t, log, true) ops).2)
  | (t, log, true), .idle :: ops =>
    (.panic :: (hostRun lib act (t, log, true) ops).1, (hostRun lib act (t, log, true) ops).2)
  | (t, log, false), .lib c :: ops =>
    let s := (c.after lib t, log ++ [c], decide (c.Overlong lib t))
    ((if c.Overlong lib t then .panic else .ok (readBytes (c.answer lib t))) :: (hostRun lib act s ops).1,
      (hostRun lib act s ops).2)
  | (t, log, false), .idle :: ops =>
    (.ok [] :: (hostRun lib act (t, log, false) ops).1, (hostRun lib act (t, log, false) ops).2)

end Usbip.Spec
