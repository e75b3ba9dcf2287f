import Verif.Model.Examples
import Verif.Spec.Dispatch
import Verif.Spec.Handlers
import Verif.Spec.Wire
/-!
# Specification: what clients see of a handler object through the server
-/

namespace Usbip.Spec

open Usbip

/-- A submit with the device it is for. -/
structure Job where
  device : Device
  header : Header
  len : UInt32
  setup : Bytes
  data : Bytes

/-- The submit a connection executes if it is scheduled next: it is at the front of its input,
and the connection has a device. -/
def job {σ} (p : Profile) (s : Sys σ) (c : Nat) : Option Job :=
  match s.conns c with
  | some x =>
    if x.status = .running then
      match readCommand p x.input with
      | .ok (.submit header _ len _ _ _ setup data _, _) =>
        (x.current.bind (fun id => amGet id s.shared.used)).map
          (fun d => ⟨d, header, len, setup, data⟩)
      | _ => none
    else none
  | none => none

/-- The endpoint address a submit is for: the low byte of the endpoint number, with the direction
bit set if the direction is not OUT. -/
def Job.address (j : Job) : UInt8 :=
  if j.header.direction.toNat = 0 then UInt8.ofNat (j.header.ep.toNat % 256)
  else UInt8.ofNat (j.header.ep.toNat % 128 + 128)

/-- The handler invocation a submit asks for. -/
def Job.call (j : Job) : Option HCall :=
  match endpointAt j.device j.address with
  | some (ep, owner) => addressee j.device ep owner j.len (setupAt j.setup) j.data
  | none => none

/-- Of interest here: invocations of interface handler `h`, which must not have panicked before. -/
def Job.urb {σ} (h : Nat) (w : World σ) (j : Job) : Option (Endpoint × SetupPacket) :=
  match j.call with
  | some (.iface h' _ ep _ setup _) => if h' = h ∧ w.ifPoisoned h = false then some (ep, setup) else none
  | _ => none

/-- What connection `c` has sent in `t` beyond what it had sent in `s`. -/
def newlySent {σ} (s t : Sys σ) (c : Nat) : Bytes :=
  match s.conns c, t.conns c with
  | some x, some y => y.output.drop x.output.length
  | _, _ => []

/-- What happens to a handler object: the application acts on it, or a URB arrives. -/
inductive Op (α : Type) where
  | app (a : α)
  | urb (ep : Endpoint) (setup : SetupPacket)

/-- What a client was sent in reply to a URB: the endpoint asked, the direction in the request,
whether sending went well, and the bytes. -/
structure Sent where
  ep : Endpoint
  direction : UInt32
  write : WriteRes
  bytes : Bytes

/-- Data of a reply: all that follows the 48 byte header. -/
def Sent.data (r : Sent) : Bytes := r.bytes.drop 48

/-- Seen in one step: what happens to the object, and what is sent if it was a URB. -/
def observe {σ τ α} (env : Env (σ × τ)) (act : α → τ → τ) (h : Nat) (p : Profile)
    (s : Sys (σ × τ)) (e : HostedEvent σ α) : Option (Op α × Option Sent) :=
  match e with
  | .app a => some (.app a, none)
  | .server (.iterate c w) =>
    match job p s c with
    | some j =>
      match j.urb h s.shared.world with
      | some (ep, setup) =>
        some (.urb ep setup,
          some ⟨ep, j.header.direction, w, newlySent s (s.step env p (e.event act)) c⟩)
      | none => none
    | none => none
  | _ => none

/-- Seen in a whole history, over all connections, in the order of execution. -/
def observations {σ τ α} (env : Env (σ × τ)) (act : α → τ → τ) (h : Nat) (p : Profile) :
    Sys (σ × τ) → List (HostedEvent σ α) → List (Op α × Option Sent)
  | _, [] => []
  | s, e :: es =>
    (observe env act h p s e).toList ++ observations env act h p (s.step env p (e.event act)) es

/-- The object on its own: the answers to the URBs, and its final state. -/
def objRun {τ α} (obj : Endpoint → SetupPacket → τ → HRes × τ) (act : α → τ → τ) :
    τ → List (Op α) → List HRes × τ
  | t, [] => ([], t)
  | t, .app a :: ops => objRun obj act (act a t) ops
  | t, .urb ep setup :: ops =>
    ((obj ep setup t).1 :: (objRun obj act (obj ep setup t).2 ops).1,
      (objRun obj act (obj ep setup t).2 ops).2)

/-- The bytes sent carry the handler's answer: nothing but data of that answer, and all of it, as
a success of that length, if the request was an IN request or there is no data, and sending went well. -/
def Carries (r : Sent) : HRes → Prop
  | .ok b => r.data <+: b ∧ (r.direction = 1 ∨ b = [] → r.write = .full → b.length < 4294967296 →
      r.data = b ∧ r.bytes.length = 48 + b.length ∧ (r.bytes.drop 20).take 8 = [0, 0, 0, 0] ++ bigEndian 4 b.length)
  | .err _ => r.data = [] ∧ (r.write = .full → (r.bytes.drop 20).take 8 = [0, 0, 0, 1, 0, 0, 0, 0])
  | .panic => r.bytes = []

/-- Two lists of the same length, related element by element. -/
inductive Pointwise {α β : Type} (R : α → β → Prop) : List α → List β → Prop
  | nil : Pointwise R [] []
  | cons {a b l m} (h : R a b) (hs : Pointwise R l m) : Pointwise R (a :: l) (b :: m)

/-- The polls of a keyboard: URBs to data IN endpoints. -/
def keyOp : Op KeyReport → KOp
  | .app r => .push r
  | .urb ep setup => .urb ep setup

/-- The serial port's operations. -/
def serialOp : Op Bytes → COp
  | .app b => .write b
  | .urb ep _ => .urb ep

/-- What the clients were sent in reply to polls of the keyboard `h`, over all connections, in the
order of execution. -/
def keyboardReplies {σ} (env : Env σ) (h : Nat) (p : Profile) (s : Sys (σ × Keyboard))
    (es : List (HostedEvent σ KeyReport)) : List Sent :=
  ((observations (hosting keyboardObj h env) Keyboard.push h p s es).filterMap Prod.snd).filter
    (fun r => decide (DataIn r.ep))

/-- What happened to the keyboard `h`: events queued by the application, URBs. -/
def keyboardOps {σ} (env : Env σ) (h : Nat) (p : Profile) (s : Sys (σ × Keyboard))
    (es : List (HostedEvent σ KeyReport)) : List KOp :=
  (observations (hosting keyboardObj h env) Keyboard.push h p s es).map (fun o => keyOp o.1)

/-- The events the application queued. -/
def typed {σ} (es : List (HostedEvent σ KeyReport)) : List KeyReport :=
  es.filterMap (fun | .app r => some r | .server _ => none)

/-- What the clients were sent in reply to bulk IN requests to the serial port `h`. -/
def serialReplies {σ} (env : Env σ) (h : Nat) (p : Profile) (s : Sys (σ × Cdc))
    (es : List (HostedEvent σ Bytes)) : List Sent :=
  ((observations (hosting serialObj h env) Cdc.write h p s es).filterMap Prod.snd).filter
    (fun r => decide (BulkIn r.ep))

/-- Everything the clients were sent in reply to requests that reached the serial port. -/
def serialAll {σ} (env : Env σ) (h : Nat) (p : Profile) (s : Sys (σ × Cdc))
    (es : List (HostedEvent σ Bytes)) : List Sent :=
  (observations (hosting serialObj h env) Cdc.write h p s es).filterMap Prod.snd

/-- The bytes the application wrote. -/
def spoken {σ} (es : List (HostedEvent σ Bytes)) : Bytes :=
  es.flatMap (fun | .app b => b | .server _ => [])

/-- The control requests the keyboard knows: GET_DESCRIPTOR of its report descriptor and SET_IDLE. -/
def KeyboardKnows (s : SetupPacket) : Prop :=
  (s.requestType.toNat = 0x81 ∧ s.request.toNat = 6 ∧ s.value.toNat / 256 = 0x22) ∨
  (s.requestType.toNat = 0x21 ∧ s.request.toNat = 0x0A)

instance (s : SetupPacket) : Decidable (KeyboardKnows s) := by unfold KeyboardKnows; infer_instance

end Usbip.Spec
