import Verif.Model.Server
import Verif.Spec.Wire
/-!
# Specification vocabulary for server histories
-/

namespace Usbip.Spec

open Usbip

/-- All devices the server has: those in the device list and those imported. -/
def onServer {σ} (s : Shared σ) : List Device := s.available ++ s.used.map Prod.snd

/-- Connection `c` is live and has the device with bus id `id` imported. -/
def Holds {σ} (s : Sys σ) (c : Nat) (id : Bytes) : Prop :=
  ∃ x, s.conns c = some x ∧ x.status = .running ∧ x.current = some id

/-- No two devices the server has share a bus id. -/
def Distinct {σ} (s : Shared σ) : Prop := ((onServer s).map Device.busId).Nodup

/-- Along the history, devices are only added while the server has no device with that bus id. -/
def Fresh {σ} (env : Env σ) (p : Profile) : Sys σ → List (Event σ) → Prop
  | _, [] => True
  | s, e :: es =>
    (match e with
     | .addDevice d => ∀ x ∈ onServer s.shared, x.busId ≠ d.busId
     | _ => True) ∧ Fresh env p (s.step env p e) es

/-- The bookkeeping the application can do on its own, for one event: note what it hands to the
server, strike out what a successful `remove_device` returned. -/
def ledgerStep {σ} (s : Sys σ) (l : List Device) : Event σ → List Device
  | .addDevice d => l ++ [d]
  | .removeDevice id =>
    match (s.shared.removeDevice id).1 with
    | .ok () => l.filter (fun d => d.busId ≠ id)
    | _ => l
  | _ => l

/-- The bookkeeping along a history. -/
def ledger {σ} (env : Env σ) (p : Profile) : Sys σ → List Device → List (Event σ) → List Device
  | _, l, [] => l
  | s, l, e :: es => ledger env p (s.step env p e) (ledgerStep s l e) es

/-- A device that is imported by nobody although the server thinks it is imported. -/
def Orphan {σ} (s : Sys σ) (id : Bytes) : Prop :=
  (∃ d, amGet id s.shared.used = some d) ∧ ∀ c, ¬ Holds s c id

/-- `busid` is a 32-byte bus id field carrying the bus id `id`. -/
def BusField (busid id : Bytes) : Prop :=
  id.length ≤ 32 ∧ (∀ b ∈ id, b ≠ 0) ∧ busid = id ++ List.replicate (32 - id.length) 0

/-- Is this command an import? -/
def isImport : Cmd → Bool
  | .reqImport .. => true
  | _ => false

/-- The reply is of the kind the request calls for: a device list with its count; an import
success with a device or a bare failure; a submit or unlink reply with the request's header under
the reply's command code, no ISO packets, and either success with all of the data or failure
without any. -/
def Answers : Cmd → Resp → Prop
  | .reqDevlist _, r => ∃ ds, r = .repDevlist 0 (UInt32.ofNat ds.length) ds
  | .reqImport .., r => (∃ d, r = .repImport 0 (some d)) ∨ r = .repImport 1 none
  | .submit h .., r =>
    (∃ buf, r = .retSubmit { h with command := 3 } 0 (UInt32.ofNat buf.length) 0 0 0 buf []) ∨
    r = .retSubmit { h with command := 3 } 1 0 0 0 0 [] []
  | .unlink h _, r => r = .retUnlink { h with command := 4 } 0

/-- Nothing in the reply exceeds what the protocol's counters can express. -/
def Sized : Resp → Prop
  | .repDevlist _ _ ds => ds.length < 2 ^ 32 ∧ ∀ d ∈ ds, d.interfaces.length ≤ 255
  | .retSubmit _ _ _ _ _ _ buf _ => buf.length < 2 ^ 32
  | _ => True

/-- An OUT reply carries no data. -/
def NoOutData : Resp → Prop
  | .retSubmit h _ _ _ _ _ buf _ => h.direction.toNat = 1 ∨ buf = []
  | _ => True

/-- A history in which connections import only while holding nothing, and end, if they end while
holding something, by a failing read (the peer closed, the socket broke, or a malformed packet). -/
def Orderly {σ} (env : Env σ) (p : Profile) : Sys σ → List (Event σ) → Prop
  | _, [] => True
  | s, e :: es =>
    (match e with
     | .iterate c _ => ∀ x id, s.conns c = some x → x.status = .running → x.current = some id →
        (∃ k, readCommand p x.input = .err k) ∨
        (∃ cmd rest, readCommand p x.input = .ok (cmd, rest) ∧ isImport cmd = false ∧
          ∃ y, (s.step env p e).conns c = some y ∧ y.status = .running)
     | .cancel c => ∀ x, s.conns c = some x → x.status = .running → x.current = none
     | _ => True) ∧
    (match e with
     | .iterate c _ => ∀ x, s.conns c = some x → x.status = .running → x.current = none →
        ∀ y, (s.step env p e).conns c = some y → y.status ≠ .running → y.current = none
     | _ => True) ∧ Orderly env p (s.step env p e) es

end Usbip.Spec

namespace Usbip.Spec
open Usbip

/-- What has happened on a connection: `log` lists the commands read off `input0` with the reply
to each and its bytes; `mid` is what was left of the input after them; everything sent is the
replies' bytes in order, followed by `part`, which is empty while the connection is live and
otherwise is the beginning of the reply to the next command (its sending failed).  (`logged` ties the
log to the model's own record.) -/
structure Conversation (p : Profile) (input0 : Stream) (x : Conn) (log : List (Cmd × Resp × Bytes))
    (mid : Stream) (part : Bytes) : Prop where
  commands : readMany p log.length input0 = .ok (log.map (·.1), mid)
  replies : ∀ e ∈ log, Answers e.1 e.2.1 ∧ e.2.1.toBytes p = .ok e.2.2
  sent : x.output = log.flatMap (·.2.2) ++ part
  live : x.status = .running → part = [] ∧ mid = x.input
  cut : part ≠ [] → ∃ cmd r bs, readCommand p mid = .ok (cmd, x.input) ∧ Answers cmd r ∧
    r.toBytes p = .ok bs ∧ part <+: bs
  logged : x.served = log.map (fun e => (e.1, e.2.1))

/-- The connection an event is about. -/
def actor {σ} : Event σ → Option Nat
  | .connect c _ => some c
  | .iterate c _ => some c
  | .cancel c => some c
  | _ => none

end Usbip.Spec
