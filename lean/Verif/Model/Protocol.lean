import Verif.Model.Device
/-!
# src/usbip_protocol.rs
-/

namespace Usbip

/-- src/usbip_protocol.rs:22 `USBIP_VERSION`. -/
def USBIP_VERSION : UInt16 := 0x0111
/-- src/usbip_protocol.rs:25 `OP_REQ_DEVLIST`. -/
def OP_REQ_DEVLIST : UInt16 := 0x8005
/-- src/usbip_protocol.rs:27 `OP_REQ_IMPORT`. -/
def OP_REQ_IMPORT : UInt16 := 0x8003
/-- src/usbip_protocol.rs:29 `OP_REP_DEVLIST`. -/
def OP_REP_DEVLIST : UInt16 := 0x0005
/-- src/usbip_protocol.rs:31 `OP_REP_IMPORT`. -/
def OP_REP_IMPORT : UInt16 := 0x0003
/-- src/usbip_protocol.rs:34 `USBIP_CMD_SUBMIT`. -/
def USBIP_CMD_SUBMIT : UInt16 := 0x0001
/-- src/usbip_protocol.rs:36 `USBIP_CMD_UNLINK`. -/
def USBIP_CMD_UNLINK : UInt16 := 0x0002
/-- src/usbip_protocol.rs:38 `USBIP_RET_SUBMIT`. -/
def USBIP_RET_SUBMIT : UInt16 := 0x0003
/-- src/usbip_protocol.rs:40 `USBIP_RET_UNLINK`. -/
def USBIP_RET_UNLINK : UInt16 := 0x0004

/-- src/usbip_protocol.rs:48-51: `Direction::Out as u32`. -/
def dirOut : UInt32 := 0
/-- src/usbip_protocol.rs:48-51: `Direction::In as u32`. -/
def dirIn : UInt32 := 1

/-- src/usbip_protocol.rs:59-65 `UsbIpHeaderBasic`. -/
structure Header where
  command : UInt32
  seqnum : UInt32
  devid : UInt32
  direction : UInt32
  ep : UInt32
  deriving DecidableEq, Repr

/-- src/usbip_protocol.rs:83-91 `UsbIpHeaderBasic::to_bytes`. -/
def Header.toBytes (h : Header) : Bytes :=
  be32 h.command ++ be32 h.seqnum ++ be32 h.devid ++ be32 h.direction ++ be32 h.ep

/-- `u32::from_be_bytes(bytes[i..i+4].try_into().unwrap())` (src/usbip_protocol.rs:71-75). -/
def be32At (bytes : Bytes) (i : Nat) : UInt32 :=
  match (bytes.drop i).take 4 with
  | [a, b, c, d] => ofBe32 a b c d
  | _ => 0

/-- src/usbip_protocol.rs:69-80 `UsbIpHeaderBasic::from_bytes` (argument of type `[u8; 20]`). -/
def Header.fromBytes (p : Profile) (bytes : Bytes) : Outcome Header := do
  let result : Header :=
    { command := be32At bytes 0
      seqnum := be32At bytes 4
      devid := be32At bytes 8
      direction := be32At bytes 12
      ep := be32At bytes 16 }
  debugAssert p (result.direction &&& 1 == result.direction)
  return result

/-- src/usbip_protocol.rs:117-140 `UsbIpCommand`.  `busid : [u8; 32]` and `setup : [u8; 8]` are
lists here; their Rust lengths are part of `Spec.WellFormed`. -/
inductive Cmd where
  | reqDevlist (status : UInt32)
  | reqImport (status : UInt32) (busid : Bytes)
  | submit (header : Header) (transferFlags transferBufferLength startFrame numberOfPackets
      interval : UInt32) (setup : Bytes) (data : Bytes) (isoPacketDescriptor : Bytes)
  | unlink (header : Header) (unlinkSeqnum : UInt32)
  deriving DecidableEq, Repr

/-- What `T: AsyncReadExt` offers the reader: `read_exact` on `n` bytes, returning them and the
rest of the socket, or the socket's error.  `read_u16`/`read_u32` read 2/4 bytes the same way. 
src/usbip_protocol.rs:93-94, 144-147, src/lib.rs:386. -/
class Source (S : Type) where
  readExact : Nat → S → Outcome (Bytes × S)

/-- Code that reads from a socket.  src/usbip_protocol.rs:93-111, 144-251. -/
abbrev Rd (S : Type) := StateT S Outcome

/-- `socket.read_exact(&mut buf).await?` with `buf.len() = n`.  src/usbip_protocol.rs:182, 197, 203, 213,
238. -/
def readExact {S} [Source S] (n : Nat) : Rd S Bytes := Source.readExact n

/-- `socket.read_u16().await?`.  src/usbip_protocol.rs:148, 157. -/
def readU16 {S} [Source S] : Rd S UInt16 := do
  match ← readExact 2 with
  | [a, b] => return ofBe16 a b
  | _ => fun _ => .panic

/-- `socket.read_u32().await?`.  src/usbip_protocol.rs:97-102, 173, 179, 190-194, 235. -/
def readU32 {S} [Source S] : Rd S UInt32 := do
  match ← readExact 4 with
  | [a, b, c, d] => return ofBe32 a b c d
  | _ => fun _ => .panic

/-- `debug_assert!` inside socket code.  src/usbip_protocol.rs:101, 174, 180. -/
def rdAssert {S} (p : Profile) (c : Bool) : Rd S Unit := fun s => do
  debugAssert p c
  return ((), s)

/-- `return Err(...)` inside socket code.  src/usbip_protocol.rs:151-154, 245-248. -/
def rdErr {S α} (e : ErrKind) : Rd S α := fun _ => .err e

/-- src/usbip_protocol.rs:93-111 `read_from_socket_with_command`. -/
def readHeader {S} [Source S] (p : Profile) (command : UInt16) : Rd S Header := do
  let seqnum ← readU32
  let devid ← readU32
  let direction ← readU32
  rdAssert p (direction &&& 1 == direction)
  let ep ← readU32
  return { command := command.toUInt32, seqnum, devid, direction, ep }

/-- src/usbip_protocol.rs:186-230: the `USBIP_CMD_SUBMIT` arm. -/
def readSubmit {S} [Source S] (p : Profile) : Rd S Cmd := do
  let header ← readHeader p USBIP_CMD_SUBMIT
  let transferFlags ← readU32
  let transferBufferLength ← readU32
  let startFrame ← readU32
  let numberOfPackets ← readU32
  let interval ← readU32
  let setup ← readExact 8
  let data ← (if header.direction = dirIn then pure []
    else readExact transferBufferLength.toNat : Rd S Bytes)
  let iso ← (if numberOfPackets ≠ 0 ∧ numberOfPackets ≠ 0xFFFFFFFF then
      readExact (16 * numberOfPackets.toNat)
    else pure [] : Rd S Bytes)
  return .submit header transferFlags transferBufferLength startFrame numberOfPackets interval
    setup data iso

/-- src/usbip_protocol.rs:231-244: the `USBIP_CMD_UNLINK` arm. -/
def readUnlink {S} [Source S] (p : Profile) : Rd S Cmd := do
  let header ← readHeader p USBIP_CMD_UNLINK
  let unlinkSeqnum ← readU32
  let _padding ← readExact 24
  return .unlink header unlinkSeqnum

/-- src/usbip_protocol.rs:147-250 `UsbIpCommand::read_from_socket`. -/
def readCommand {S} [Source S] (p : Profile) : Rd S Cmd := do
  let version ← readU16
  if version ≠ 0 ∧ version ≠ USBIP_VERSION then rdErr .other
  else
    let command ← readU16
    if command = OP_REQ_DEVLIST then
      let status ← readU32
      rdAssert p (status == 0)
      return .reqDevlist status
    else if command = OP_REQ_IMPORT then
      let status ← readU32
      rdAssert p (status == 0)
      let busid ← readExact 32
      return .reqImport status busid
    else if command = USBIP_CMD_SUBMIT then readSubmit p
    else if command = USBIP_CMD_UNLINK then readUnlink p
    else rdErr .other

/-- src/usbip_protocol.rs:253-309 `UsbIpCommand::to_bytes`. -/
def Cmd.toBytes (p : Profile) : Cmd → Outcome Bytes
  | .reqDevlist status => .ok (be16 USBIP_VERSION ++ be16 OP_REQ_DEVLIST ++ be32 status)
  | .reqImport status busid =>
    .ok (be16 USBIP_VERSION ++ be16 OP_REQ_IMPORT ++ be32 status ++ busid)
  | .submit header flags len startFrame npkts interval setup data iso => do
    debugAssert p (header.direction != dirOut || len == asU32 data.length)
    return header.toBytes ++ be32 flags ++ be32 len ++ be32 startFrame ++ be32 npkts
      ++ be32 interval ++ setup ++ data ++ iso
  | .unlink header unlinkSeqnum =>
    .ok (header.toBytes ++ be32 unlinkSeqnum ++ List.replicate 24 0)

/-- src/usbip_protocol.rs:315-339 `UsbIpResponse`. -/
inductive Resp where
  | repDevlist (status : UInt32) (deviceCount : UInt32) (devices : List Device)
  | repImport (status : UInt32) (device : Option Device)
  | retSubmit (header : Header) (status actualLength startFrame numberOfPackets
      errorCount : UInt32) (transferBuffer : Bytes) (isoPacketDescriptor : Bytes)
  | retUnlink (header : Header) (status : UInt32)

/-- The loop at src/usbip_protocol.rs:361-363. -/
def devlistBytes (p : Profile) : List Device → Outcome Bytes
  | [] => .ok []
  | d :: ds => do
    let b ← d.toBytesWithInterfaces p
    let bs ← devlistBytes p ds
    return b ++ bs

/-- src/usbip_protocol.rs:343-418 `UsbIpResponse::to_bytes`. -/
def Resp.toBytes (p : Profile) : Resp → Outcome Bytes
  | .repDevlist status count devices => do
    let ds ← devlistBytes p devices
    return be16 USBIP_VERSION ++ be16 OP_REP_DEVLIST ++ be32 status ++ be32 count ++ ds
  | .repImport status device => do
    let d ← (match device with
      | some device => device.toBytes p
      | none => .ok [] : Outcome Bytes)
    return be16 USBIP_VERSION ++ be16 OP_REP_IMPORT ++ be32 status ++ d
  | .retSubmit header status actualLength startFrame npkts errorCount buf iso => do
    debugAssert p (header.command == USBIP_RET_SUBMIT.toUInt32)
    debugAssert p (if header.direction = dirIn then actualLength == asU32 buf.length
      else actualLength == 0)
    return header.toBytes ++ be32 status ++ be32 actualLength ++ be32 startFrame ++ be32 npkts
      ++ be32 errorCount ++ List.replicate 8 0 ++ buf ++ iso
  | .retUnlink header status => do
    debugAssert p (header.command == USBIP_RET_UNLINK.toUInt32)
    return header.toBytes ++ be32 status ++ List.replicate 24 0

/-- src/usbip_protocol.rs:425-431 `op_rep_devlist`. -/
def opRepDevlist (devices : List Device) : Resp :=
  .repDevlist 0 (asU32 devices.length) devices

/-- src/usbip_protocol.rs:434-439 `op_rep_import_success`. -/
def opRepImportSuccess (d : Device) : Resp := .repImport 0 (some d)

/-- src/usbip_protocol.rs:442-447 `op_rep_import_fail`. -/
def opRepImportFail : Resp := .repImport 1 none

/-- src/usbip_protocol.rs:450-467 `usbip_ret_submit_success`. -/
def usbipRetSubmitSuccess (header : Header) (startFrame numberOfPackets : UInt32)
    (transferBuffer iso : Bytes) : Resp :=
  .retSubmit header 0 (asU32 transferBuffer.length) startFrame numberOfPackets 0 transferBuffer iso

/-- src/usbip_protocol.rs:470-481 `usbip_ret_submit_fail`. -/
def usbipRetSubmitFail (header : Header) : Resp :=
  .retSubmit header 1 0 0 0 0 [] []

/-- src/usbip_protocol.rs:484-489 `usbip_ret_unlink_success`. -/
def usbipRetUnlinkSuccess (header : Header) : Resp := .retUnlink header 0

/-- src/usbip_protocol.rs:492-497 `usbip_ret_unlink_fail` (never called by the server). -/
def usbipRetUnlinkFail (header : Header) : Resp := .retUnlink header 1

/-! ## Sockets -/

/-- The read side of a socket as a whole: the bytes that will arrive, and the error every read
reports once they are exhausted (`unexpectedEof` for an orderly close).  `socket` of
src/usbip_protocol.rs:144-147; `unexpectedEof` is told apart at src/lib.rs:403. -/
structure Stream where
  bytes : Bytes
  fin : ErrKind
  deriving DecidableEq, Repr

/-- tokio `read_exact` on a stream known as a whole (also src/util.rs:37-46 `MockSocket`, whose
`fin` is `unexpectedEof`). -/
def Stream.readExact (n : Nat) (s : Stream) : Outcome (Bytes × Stream) :=
  if n ≤ s.bytes.length then .ok (s.bytes.take n, { s with bytes := s.bytes.drop n })
  else .err s.fin

/-- src/usbip_protocol.rs:144-147. -/
instance : Source Stream := ⟨Stream.readExact⟩

/-- The read side of a socket as a sequence of segments: each `poll_read` returns bytes of the
first remaining segment only (as many as fit), never zero bytes until `fin`.  `socket` of
src/usbip_protocol.rs:144-147. -/
structure Segs where
  segs : List Bytes
  fin : ErrKind

/-- tokio `read_exact`/`read_u16`/`read_u32`: poll until the buffer is full.  `acc` is what has
been read so far, `n` what is missing.  An empty segment is a poll that returns no data and is
skipped (the task is simply polled again).  src/usbip_protocol.rs:148-239. -/
def Segs.readLoop (fin : ErrKind) : (n : Nat) → (segs : List Bytes) → (acc : Bytes) →
    Outcome (Bytes × Segs)
  | 0, segs, acc => .ok (acc, ⟨segs, fin⟩)
  | _ + 1, [], _ => .err fin
  | n + 1, seg :: segs, acc =>
    if seg.length ≤ n + 1 then readLoop fin (n + 1 - seg.length) segs (acc ++ seg)
    else .ok (acc ++ seg.take (n + 1), ⟨seg.drop (n + 1) :: segs, fin⟩)
  termination_by _ segs => segs.length

/-- src/usbip_protocol.rs:144-147. -/
instance : Source Segs := ⟨fun n s => Segs.readLoop s.fin n s.segs []⟩

end Usbip
