import Verif.Model.Protocol
/-!
# Specification of the USB/IP wire format

Written from the protocol description (https://docs.kernel.org/usb/usbip_protocol.html), using no
encoding or decoding function of the model: only its data types.
-/

namespace Usbip.Spec

open Usbip

/-- Big-endian encoding of `v` in `k` bytes. -/
def bigEndian : (k : Nat) → (v : Nat) → Bytes
  | 0, _ => []
  | k + 1, v => UInt8.ofNat (v / 256 ^ k % 256) :: bigEndian k v

/-- A sequence of big-endian fields, each given by width and value. -/
def layout (fields : List (Nat × Nat)) : Bytes :=
  fields.flatMap (fun f => bigEndian f.1 f.2)

/-- The number a big-endian byte string denotes. -/
def natBE (bs : Bytes) : Nat := bs.foldl (fun a b => a * 256 + b.toNat) 0

/-- The five words of `usbip_header_basic`. -/
def headerFields (h : Header) : List (Nat × Nat) :=
  [(4, h.command.toNat), (4, h.seqnum.toNat), (4, h.devid.toNat), (4, h.direction.toNat),
   (4, h.ep.toNat)]

/-- Documented layout of the four requests. -/
def wireCmd : Cmd → Bytes
  | .reqDevlist status => layout [(2, 0x0111), (2, 0x8005), (4, status.toNat)]
  | .reqImport status busid => layout [(2, 0x0111), (2, 0x8003), (4, status.toNat)] ++ busid
  | .submit h flags len startFrame npkts interval setup data iso =>
    layout (headerFields h ++ [(4, flags.toNat), (4, len.toNat), (4, startFrame.toNat),
      (4, npkts.toNat), (4, interval.toNat)]) ++ setup ++ data ++ iso
  | .unlink h seqnum =>
    layout (headerFields h ++ [(4, seqnum.toNat)]) ++ List.replicate 24 0

/-- Does this packet count announce ISO packet descriptors? (0 and 0xFFFFFFFF do not.) -/
def hasIso (npkts : UInt32) : Prop := npkts.toNat ≠ 0 ∧ npkts.toNat ≠ 4294967295

instance (n : UInt32) : Decidable (hasIso n) := by unfold hasIso; infer_instance

/-- A well-formed request: header code matching its kind, payload and ISO descriptors of the
announced length (an IN submit, direction 1, carries no payload).  When `strict`, status is 0 and
the direction is 0 or 1, as the protocol demands (builds with debug assertions insist on it). -/
def WellFormed (strict : Bool) : Cmd → Prop
  | .reqDevlist status => strict = true → status.toNat = 0
  | .reqImport status busid => busid.length = 32 ∧ (strict = true → status.toNat = 0)
  | .submit h _ len _ npkts _ setup data iso =>
    h.command.toNat = 1 ∧ (strict = true → h.direction.toNat ≤ 1) ∧ setup.length = 8
      ∧ data.length = (if h.direction.toNat = 1 then 0 else len.toNat)
      ∧ iso.length = (if hasIso npkts then 16 * npkts.toNat else 0)
  | .unlink h _ => h.command.toNat = 2 ∧ (strict = true → h.direction.toNat ≤ 1)

instance (b : Bool) : (c : Cmd) → Decidable (WellFormed b c)
  | .reqDevlist _ => by unfold WellFormed; infer_instance
  | .reqImport .. => by unfold WellFormed; infer_instance
  | .submit .. => by unfold WellFormed; infer_instance
  | .unlink .. => by unfold WellFormed; infer_instance

/-- The bytes `consumed` are a packet for `cmd` as far as the server looks at them: the documented
layout, with version 0 as an alternative to 0x0111 and vice versa, and with arbitrary padding at the
end of an unlink. -/
def PacketFor (cmd : Cmd) (consumed : Bytes) : Prop :=
  ∃ v ∈ [[0, 0], [0x01, 0x11]],
    match cmd with
    | .unlink .. => ∃ pad : Bytes, pad.length = 24 ∧
        consumed = v ++ ((wireCmd cmd).drop 2).take 22 ++ pad
    | _ => consumed = v ++ (wireCmd cmd).drop 2

/-- The USB little-endian encoding of a SETUP packet (USB 2.0, 9.3). -/
def setupBytes (s : SetupPacket) : Bytes :=
  [s.requestType, s.request,
   UInt8.ofNat (s.value.toNat % 256), UInt8.ofNat (s.value.toNat / 256),
   UInt8.ofNat (s.index.toNat % 256), UInt8.ofNat (s.index.toNat / 256),
   UInt8.ofNat (s.length.toNat % 256), UInt8.ofNat (s.length.toNat / 256)]

/-- Read `n` commands in a row (the calls the server's loop makes). -/
def readMany (p : Profile) : Nat → Stream → Outcome (List Cmd × Stream)
  | 0, s => .ok ([], s)
  | n + 1, s => do
    let (c, s) ← readCommand p s
    let (cs, s) ← readMany p n s
    return (c :: cs, s)

end Usbip.Spec
