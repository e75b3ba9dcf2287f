import Verif.Spec.Trace
/-!
# Specification: what a device shared through nusb is asked to do over a whole history
-/

namespace Usbip.Spec

open Usbip

/-- A call to nusb, with the handler whose claimed interface or device handle is used. -/
inductive NusbCall where
  | controlIn (handler : HandlerId) (c : NusbControl) (bufLen : Nat)
  | controlOut (handler : HandlerId) (c : NusbControl) (data : Bytes)
  deriving DecidableEq

/-- nusb as seen through the device's handles. -/
structure NusbHost (τ : Type) where
  iface : Nat → NusbLib τ
  dev : Nat → NusbLib τ

def NusbHost.at {τ} (host : NusbHost τ) : HandlerId → NusbLib τ
  | .iface h => host.iface h
  | .dev h => host.dev h

/-- What nusb answers to a read (nothing for writes). -/
def NusbCall.answer {τ} (host : NusbHost τ) (t : τ) : NusbCall → ReadRes
  | .controlIn h c n => ((host.at h).controlIn c n t).1
  | .controlOut _ _ _ => none

/-- The state of the host device after a call. -/
def NusbCall.after {τ} (host : NusbHost τ) (t : τ) : NusbCall → τ
  | .controlIn h c n => ((host.at h).controlIn c n t).2
  | .controlOut h c d => (host.at h).controlOut c d t

/-- The same handle, recording every call. -/
def watchNusb {τ} (h : HandlerId) (lib : NusbLib τ) : NusbLib (τ × List NusbCall) where
  controlIn c n t := ((lib.controlIn c n t.1).1, (lib.controlIn c n t.1).2, t.2 ++ [.controlIn h c n])
  controlOut c d t := (lib.controlOut c d t.1, t.2 ++ [.controlOut h c d])

/-- nusb never claims to have read more than the buffer holds. -/
def NusbHost.Honest {τ} (host : NusbHost τ) : Prop :=
  ∀ h c n t l f, ((host.at h).controlIn c n t).1 = some (l, f) → l ≤ n

/-- Bits 5 and 6 of a request type; 3 is reserved (USB 2.0, table 9-2). -/
def typeOf (requestType : UInt8) : Option NusbType :=
  [NusbType.standard, .cls, .vendor][requestType.toNat / 32 % 4]?

/-- Bits 0 to 4 of a request type; from 4 on reserved (USB 2.0, table 9-2). -/
def recipientOf (requestType : UInt8) : Option NusbRecipient :=
  [NusbRecipient.device, .interface, .endpoint, .other][requestType.toNat % 32]?

/-- The request in nusb's terms, if its type and recipient are not reserved. -/
def controlOf (s : SetupPacket) : Option NusbControl :=
  match typeOf s.requestType, recipientOf s.requestType with
  | some t, some r => some ⟨t, r, s.request, s.value, s.index⟩
  | _, _ => none

/-- What a handler invocation makes of a device shared through nusb: a call, a crash of the handler, or
nothing (isochronous transfers, and handlers of other devices). -/
inductive NusbDoes where
  | call (c : NusbCall)
  | crash (h : HandlerId)
  | nothing

/-- A control transfer, in the direction given. -/
def transfer (h : HandlerId) (isIn : Prop) [Decidable isIn] (len : UInt32) (data : Bytes) (c : NusbControl) : NusbDoes :=
  .call (if isIn then .controlIn h c len.toNat else .controlOut h c data)

def nusbDoes (ifs devs : Nat → Bool) : HCall → NusbDoes
  | .iface h _ ep len setup data =>
    if ifs h then
      match controlOf setup, ep.attributes.toNat with
      | none, _ => .crash (.iface h)
      | some c, 0 => transfer (.iface h) (128 ≤ ep.address.toNat) len data c
      | some _, 2 => .crash (.iface h)
      | some _, 3 => .crash (.iface h)
      | some _, _ => .nothing
    else .nothing
  | .dev h len setup data =>
    if devs h then
      match controlOf setup with
      | none => .crash (.dev h)
      | some c => transfer (.dev h) (128 ≤ setup.requestType.toNat) len data c
    else .nothing

/-- What happens to a device shared through nusb: it acts by itself, nusb is called, one of its handlers
crashes. -/
inductive NusbOp (α : Type) where
  | app (a : α)
  | lib (c : NusbCall)
  | crash (h : HandlerId)
  deriving DecidableEq

/-- Seen in one step. -/
def nusbWitness {σ τ α} (env : Env (σ × τ)) (act : α → τ → τ) (ifs devs : Nat → Bool) (p : Profile)
    (s : Sys (σ × τ)) (e : HostedEvent σ α) : Option (NusbOp α × Option Sent) :=
  match e with
  | .app a => some (.app a, none)
  | .server _ =>
    match witness env p s (e.event act) with
    | some (.call c, o) =>
      match nusbDoes ifs devs c with
      | .call l => some (.lib l, o)
      | .crash h => some (.crash h, o)
      | .nothing => none
    | _ => none

/-- Seen in a whole history, over all connections, in the order of execution. -/
def nusbTrace {σ τ α} (env : Env (σ × τ)) (act : α → τ → τ) (ifs devs : Nat → Bool) (p : Profile) :
    Sys (σ × τ) → List (HostedEvent σ α) → List (NusbOp α × Option Sent)
  | _, [] => []
  | s, e :: es => (nusbWitness env act ifs devs p s e).toList ++
      nusbTrace env act ifs devs p (s.step env p (e.event act)) es

/-- The host device on its own: the answers, and its final state. -/
def nusbRun {τ α} (host : NusbHost τ) (act : α → τ → τ) : τ → List (NusbOp α) → List HRes × τ
  | t, [] => ([], t)
  | t, .app a :: ops => nusbRun host act (act a t) ops
  | t, .lib c :: ops =>
    (.ok (readBytes (c.answer host t)) :: (nusbRun host act (c.after host t) ops).1, (nusbRun host act (c.after host t) ops).2)
  | t, .crash _ :: ops => (.panic :: (nusbRun host act t ops).1, (nusbRun host act t ops).2)

/-- The calls among what happened. -/
def nusbCalls {α} (ops : List (NusbOp α)) : List NusbCall :=
  ops.filterMap (fun | .lib c => some c | _ => none)

/-- The handler a call or crash is of. -/
def NusbOp.of {α} : NusbOp α → Option HandlerId
  | .app _ => none
  | .lib (.controlIn h _ _) => some h
  | .lib (.controlOut h _ _) => some h
  | .crash h => some h

/-- The handlers of the shared device. -/
def nusbOwn (ifs devs : Nat → Bool) : HandlerId → Bool
  | .iface h => ifs h
  | .dev h => devs h

end Usbip.Spec
