import Verif.Spec.Descriptor
/-!
# Specification: who a URB is addressed to

Written from the USB request format (bmRequestType bits, wIndex), with plain arithmetic; handler
calls are made observable by a logging wrapper around arbitrary handlers.
-/

namespace Usbip.Spec

open Usbip

/-- One invocation of a handler. -/
inductive HCall where
  | iface (handler : Nat) (intf : Iface) (ep : Endpoint) (len : UInt32) (setup : SetupPacket)
      (data : Bytes)
  | dev (handler : Nat) (len : UInt32) (setup : SetupPacket) (data : Bytes)
  deriving DecidableEq

/-- What the handler does when invoked in state `u`. -/
def HCall.answer {σ} (env : Env σ) (u : σ) : HCall → HRes × σ
  | .iface h i e l s d => env.iface h i e l s d u
  | .dev h l s d => env.dev h l s d u

/-- Whether the mutex of the handler is poisoned. -/
def HCall.poisoned {σ} (w : World σ) : HCall → Bool
  | .iface h .. => w.ifPoisoned h
  | .dev h .. => w.devPoisoned h

/-- The same handlers, recording every invocation. -/
def watch {σ} (env : Env σ) : Env (σ × List HCall) where
  iface h i e l s d u :=
    ((env.iface h i e l s d u.1).1, (env.iface h i e l s d u.1).2, u.2 ++ [.iface h i e l s d])
  dev h l s d u := ((env.dev h l s d u.1).1, (env.dev h l s d u.1).2, u.2 ++ [.dev h l s d])

/-- A world in which `log` has been recorded so far. -/
def World.logged {σ} (w : World σ) (log : List HCall) : World (σ × List HCall) :=
  ⟨(w.user, log), w.ifPoisoned, w.devPoisoned⟩

/-- The endpoint at an address, and the interface it belongs to: endpoint zero, or the first one in
interface order. -/
def endpointAt (d : Device) (a : UInt8) : Option (Endpoint × Option Iface) :=
  ((d.ep0In, none) :: (d.ep0Out, none) ::
    d.interfaces.flatMap (fun f => f.endpoints.map (fun e => (e, some f)))).find? (fun x => x.1.address == a)

/-- The fields of the eight bytes of a SETUP packet (USB 2.0, table 9-2), little endian. -/
def setupAt (b : Bytes) : SetupPacket :=
  if b.length = 8 then
    { requestType := b.getD 0 0
      request := b.getD 1 0
      value := UInt16.ofNat ((b.getD 2 0).toNat + 256 * (b.getD 3 0).toNat)
      index := UInt16.ofNat ((b.getD 4 0).toNat + 256 * (b.getD 5 0).toNat)
      length := UInt16.ofNat ((b.getD 6 0).toNat + 256 * (b.getD 7 0).toNat) }
  else ⟨0, 0, 0, 0, 0⟩

/-- Requests the library answers itself: GET_DESCRIPTOR to the device (IN) and
SET_CONFIGURATION (OUT). -/
def standard (ep : Endpoint) (setup : SetupPacket) : Prop :=
  (128 ≤ ep.address.toNat ∧ setup.requestType.toNat = 128 ∧ setup.request.toNat = 6) ∨
  (ep.address.toNat < 128 ∧ setup.requestType.toNat = 0 ∧ setup.request.toNat = 9)

instance (ep : Endpoint) (setup : SetupPacket) : Decidable (standard ep setup) := by
  unfold standard; infer_instance

/-- The handler invocation a URB asks for, if any. -/
def addressee (d : Device) (ep : Endpoint) (owner : Option Iface) (len : UInt32)
    (setup : SetupPacket) (data : Bytes) : Option HCall :=
  if ep.attributes.toNat = 0 then
    if standard ep setup then none
    else if setup.requestType.toNat % 16 = 1 then
      d.interfaces[setup.index.toNat % 256]?.map (fun i => .iface i.handler i ep len setup data)
    else if setup.requestType.toNat % 16 = 0 then
      d.deviceHandler.map (fun h => .dev h len setup data)
    else none
  else if ep.attributes.toNat ≤ 3 then
    owner.map (fun i => .iface i.handler i ep len setup data)
  else none

/-- Whose invocation it is. -/
def HCall.target : HCall → HandlerId
  | .iface h .. => .iface h
  | .dev h .. => .dev h

/-- Whether a handler object has panicked before. -/
def crashed {σ} (w : World σ) : HandlerId → Bool
  | .iface h => w.ifPoisoned h
  | .dev h => w.devPoisoned h

/-! ## What a device says to a transfer -/

/-- A device answers with data, refuses, or crashes the task that asked. -/
inductive Said where
  | data (b : Bytes)
  | failure
  | crash
  deriving DecidableEq, Repr

/-- A handler invoked at `w` answered `r` and left the state `u`; if it panicked it stays crashed. -/
def after {σ} (w : World σ) (who : HandlerId) (r : HRes) (u : σ) : World σ where
  user := u
  ifPoisoned h := w.ifPoisoned h || (decide (r = .panic) && decide (who = .iface h))
  devPoisoned h := w.devPoisoned h || (decide (r = .panic) && decide (who = .dev h))

/-- What a handler said. -/
def HRes.said : HRes → Said
  | .ok b => .data b
  | .err _ => .failure
  | .panic => .crash

/-- What a device says to a transfer on one of its endpoints, and what becomes of the handlers.
A transfer addressed to a handler is answered by it (crashed handlers crash whoever asks); the
standard requests GET_DESCRIPTOR and SET_CONFIGURATION are answered from the device's description;
everything else crashes. -/
def said {σ} (env : Env σ) (p : Profile) (d : Device) (ep : Endpoint) (owner : Option Iface)
    (len : UInt32) (setup : SetupPacket) (data : Bytes) (w : World σ) : Said × World σ :=
  match addressee d ep owner len setup data with
  | some c =>
    if crashed w c.target then (.crash, w)
    else (HRes.said (c.answer env w.user).1, after w c.target (c.answer env w.user).1 (c.answer env w.user).2)
  | none =>
    if ep.attributes.toNat = 0 ∧ standard ep setup then
      if 128 ≤ ep.address.toNat then
        if Overflows p d (setup.value.toNat / 256) (setup.value.toNat % 256) then (.crash, w)
        else
          match descriptorOf d (setup.value.toNat / 256) (setup.value.toNat % 256) with
          | some b => (.data (atMost setup.length.toNat b), w)
          | none => (.failure, w)
      else (.data (atMost setup.length.toNat [d.configurationValue]), w)
    else (.crash, w)

end Usbip.Spec
