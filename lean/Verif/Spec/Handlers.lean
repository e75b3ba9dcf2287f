import Verif.Model.Hid
import Verif.Model.Cdc
import Verif.Model.Host
/-!
# Specification: what the bundled handlers should do

Keyboard and serial port are described by what the application put in and what the host has read
so far; pass-through handlers by the one library call a transfer stands for.
-/

namespace Usbip.Spec

open Usbip

/-! ## Keyboard -/

/-- An endpoint address of an IN endpoint other than endpoint zero. -/
def DataIn (e : Endpoint) : Prop := 128 < e.address.toNat

instance (e : Endpoint) : Decidable (DataIn e) := by unfold DataIn; infer_instance

/-- What happens to a keyboard handler: the application queues an event
(`pending_key_events.push_back`), or a URB arrives. -/
inductive KOp where
  | push (r : KeyReport)
  | urb (ep : Endpoint) (setup : SetupPacket)

/-- The replies to the polls (URBs to data IN endpoints), oldest first, and the final state. -/
def typeAndPoll : Keyboard → List KOp → List HRes × Keyboard
  | k, [] => ([], k)
  | k, .push r :: ops => typeAndPoll { k with pending := k.pending ++ [r] } ops
  | k, .urb ep setup :: ops =>
    let (r, k) := k.handleUrb ep setup
    let (rs, k) := typeAndPoll k ops
    (if DataIn ep then r :: rs else rs, k)

/-- Boot keyboard report: modifier, reserved byte, six keys. -/
def keyDownReport (r : KeyReport) : Bytes := r.modifier :: 0 :: r.keys.toList

/-- What the host is to see of a sequence of events: each pressed, then released. -/
def script (up : Bytes) (events : List KeyReport) : List Bytes :=
  events.flatMap (fun r => [keyDownReport r, up])

/-- Replies to the polls: each poll takes the next unread item of the script of the events queued
so far (`n` items are read), or gets nothing. -/
def expected (up : Bytes) : List KeyReport → Nat → List KOp → List Bytes
  | _, _, [] => []
  | evs, n, .push r :: ops => expected up (evs ++ [r]) n ops
  | evs, n, .urb ep _ :: ops =>
    if DataIn ep then
      match (script up evs)[n]? with
      | some b => b :: expected up evs (n + 1) ops
      | none => [] :: expected up evs n ops
    else expected up evs n ops

/-- The events queued in a history. -/
def queued (ops : List KOp) : List KeyReport :=
  ops.filterMap (fun | .push r => some r | .urb .. => none)

/-- HID usage ids (HID Usage Tables 1.12, section 10): the characters in usage order. -/
def usageTable : List (UInt8 × UInt8) :=
  ((ascii "abcdefghijklmnopqrstuvwxyz1234567890\n").zip
    ((List.range 37).map (fun i => UInt8.ofNat (i + 4)))) ++ [(13, 40)]

/-- Bits of the input report a HID report descriptor declares (HID 1.11, section 6.2.2): short
items only; Report Size is item 0x74, Report Count 0x94, Input 0x80 (low two bits: data size). -/
def inputBits : Nat → (size count total : Nat) → Bytes → Nat
  | 0, _, _, total, _ => total
  | _ + 1, _, _, total, [] => total
  | fuel + 1, size, count, total, b :: rest =>
    let n := if b.toNat % 4 = 3 then 4 else b.toNat % 4
    let v := (rest.take n).foldr (fun x acc => x.toNat + 256 * acc) 0
    let tag := b.toNat - b.toNat % 4
    if tag = 0x74 then inputBits fuel v count total (rest.drop n)
    else if tag = 0x94 then inputBits fuel size v total (rest.drop n)
    else if tag = 0x80 then inputBits fuel size count (total + size * count) (rest.drop n)
    else inputBits fuel size count total (rest.drop n)

/-! ## Serial port -/

/-- What happens to a serial handler: the application appends to `tx_buffer`, or a URB arrives. -/
inductive COp where
  | write (b : Bytes)
  | urb (ep : Endpoint)

/-- The replies with the endpoint each was for, oldest first, and the final state. -/
def serve : Cdc → List COp → List (Endpoint × HRes) × Cdc
  | c, [] => ([], c)
  | c, .write b :: ops => serve { c with txBuffer := c.txBuffer ++ b } ops
  | c, .urb ep :: ops =>
    let (r, c) := c.handleUrb ep
    let (rs, c) := serve c ops
    ((ep, r) :: rs, c)

def HRes.bytes : HRes → Bytes
  | .ok b => b
  | _ => []

/-- Bytes the application has written. -/
def written (ops : List COp) : Bytes := ops.flatMap (fun | .write b => b | .urb _ => [])

/-- A bulk IN endpoint. -/
def BulkIn (e : Endpoint) : Prop := e.attributes.toNat = 2 ∧ 128 ≤ e.address.toNat

instance (e : Endpoint) : Decidable (BulkIn e) := by unfold BulkIn; infer_instance

/-! ## Pass-through -/

/-- A call to libusb. -/
inductive LibCall where
  | readControl (requestType request : UInt8) (value index : UInt16) (bufLen : Nat)
  | writeControl (requestType request : UInt8) (value index : UInt16) (data : Bytes)
  | readInterrupt (address : UInt8) (bufLen : Nat)
  | writeInterrupt (address : UInt8) (data : Bytes)
  | readBulk (address : UInt8) (bufLen : Nat)
  | writeBulk (address : UInt8) (data : Bytes)
  deriving DecidableEq

/-- What the library answers to a read in state `s` (nothing for writes). -/
def LibCall.answer {σ} (lib : RusbLib σ) (s : σ) : LibCall → ReadRes
  | .readControl t r v i n => (lib.readControl t r v i n s).1
  | .readInterrupt a n => (lib.readInterrupt a n s).1
  | .readBulk a n => (lib.readBulk a n s).1
  | _ => none

/-- The state of the library after a call. -/
def LibCall.after {σ} (lib : RusbLib σ) (s : σ) : LibCall → σ
  | .readControl t r v i n => (lib.readControl t r v i n s).2
  | .writeControl t r v i d => lib.writeControl t r v i d s
  | .readInterrupt a n => (lib.readInterrupt a n s).2
  | .writeInterrupt a d => lib.writeInterrupt a d s
  | .readBulk a n => (lib.readBulk a n s).2
  | .writeBulk a d => lib.writeBulk a d s

/-- The same library, recording every call. -/
def watchLib {σ} (lib : RusbLib σ) : RusbLib (σ × List LibCall) where
  readControl t r v i n s :=
    ((lib.readControl t r v i n s.1).1, (lib.readControl t r v i n s.1).2, s.2 ++ [.readControl t r v i n])
  writeControl t r v i d s := (lib.writeControl t r v i d s.1, s.2 ++ [.writeControl t r v i d])
  readInterrupt a n s :=
    ((lib.readInterrupt a n s.1).1, (lib.readInterrupt a n s.1).2, s.2 ++ [.readInterrupt a n])
  writeInterrupt a d s := (lib.writeInterrupt a d s.1, s.2 ++ [.writeInterrupt a d])
  readBulk a n s := ((lib.readBulk a n s.1).1, (lib.readBulk a n s.1).2, s.2 ++ [.readBulk a n])
  writeBulk a d s := (lib.writeBulk a d s.1, s.2 ++ [.writeBulk a d])

/-- The library never claims to have read more than the buffer holds. -/
def Honest {σ} (lib : RusbLib σ) : Prop :=
  ∀ (c : LibCall) (s : σ) (len : Nat) (f : Nat → UInt8), c.answer lib s = some (len, f) →
    match c with
    | .readControl _ _ _ _ n => len ≤ n
    | .readInterrupt _ n => len ≤ n
    | .readBulk _ n => len ≤ n
    | _ => True

/-- The library claims to have read more than the buffer of the call holds. -/
def LibCall.Overlong {σ} (lib : RusbLib σ) (s : σ) (c : LibCall) : Prop :=
  match c, c.answer lib s with
  | .readControl _ _ _ _ n, some (len, _) => n < len
  | .readInterrupt _ n, some (len, _) => n < len
  | .readBulk _ n, some (len, _) => n < len
  | _, _ => False

instance {σ} (lib : RusbLib σ) (s : σ) (c : LibCall) : Decidable (c.Overlong lib s) := by
  unfold LibCall.Overlong; split <;> infer_instance

/-- The bytes read, or none on an error. -/
def readBytes : ReadRes → Bytes
  | none => []
  | some (len, f) => (List.range len).map f

/-- The call a URB to an interface stands for: by the endpoint's transfer type and direction. -/
def ifaceCall (e : Endpoint) (len : UInt32) (s : SetupPacket) (data : Bytes) : Option LibCall :=
  let isIn := 128 ≤ e.address.toNat
  match e.attributes.toNat with
  | 0 => some (if isIn then .readControl s.requestType s.request s.value s.index len.toNat
      else .writeControl s.requestType s.request s.value s.index data)
  | 2 => some (if isIn then .readBulk e.address len.toNat else .writeBulk e.address data)
  | 3 => some (if isIn then .readInterrupt e.address len.toNat else .writeInterrupt e.address data)
  | _ => none

/-- The call a control request to the device stands for: by bit 7 of its request type. -/
def devCall (len : UInt32) (s : SetupPacket) (data : Bytes) : LibCall :=
  if 128 ≤ s.requestType.toNat then .readControl s.requestType s.request s.value s.index len.toNat
  else .writeControl s.requestType s.request s.value s.index data

/-- Bits 5 and 6 of a request type (USB 2.0, table 9-2). -/
def typeBits : NusbType → Nat
  | .standard => 0
  | .cls => 1
  | .vendor => 2

/-- Bits 0 to 4 of a request type (USB 2.0, table 9-2). -/
def recipientBits : NusbRecipient → Nat
  | .device => 0
  | .interface => 1
  | .endpoint => 2
  | .other => 3

end Usbip.Spec
