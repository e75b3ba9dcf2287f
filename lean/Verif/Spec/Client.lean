import Verif.Spec.Wire
/-!
# Specification of a USB/IP client's view of the replies

A decoder for the four replies, written from the protocol description with nothing but byte
offsets and big-endian numbers.  It uses no function of the model.
-/

namespace Usbip.Spec

open Usbip

/-- Read `n` bytes off the front, if there are that many. -/
def grab (n : Nat) (bs : Bytes) : Option (Bytes × Bytes) :=
  if n ≤ bs.length then some (bs.take n, bs.drop n) else none

/-- The big-endian number at offset `i`, `k` bytes wide. -/
def field (bs : Bytes) (i k : Nat) : Nat := natBE ((bs.drop i).take k)

/-- A NUL-terminated (or full) C string in a fixed-size field. -/
def cstr (bs : Bytes) : Bytes := bs.takeWhile (fun b => b != 0)

/-- What a client learns about a device from its 312-byte record. -/
structure DevInfo where
  path : Bytes
  busId : Bytes
  busNum : Nat
  devNum : Nat
  speed : Nat
  idVendor : Nat
  idProduct : Nat
  bcdDevice : Nat
  deviceClass : Nat
  deviceSubClass : Nat
  deviceProtocol : Nat
  configurationValue : Nat
  numConfigurations : Nat
  numInterfaces : Nat
  deriving DecidableEq, Repr

/-- The record at its documented offsets. -/
def readDevInfo (r : Bytes) : DevInfo where
  path := cstr (r.take 256)
  busId := cstr ((r.drop 256).take 32)
  busNum := field r 288 4
  devNum := field r 292 4
  speed := field r 296 4
  idVendor := field r 300 2
  idProduct := field r 302 2
  bcdDevice := field r 304 2
  deviceClass := field r 306 1
  deviceSubClass := field r 307 1
  deviceProtocol := field r 308 1
  configurationValue := field r 309 1
  numConfigurations := field r 310 1
  numInterfaces := field r 311 1

/-- One device record. -/
def decodeDev (bs : Bytes) : Option (DevInfo × Bytes) := do
  let (r, rest) ← grab 312 bs
  return (readDevInfo r, rest)

/-- Class, subclass, protocol of `n` interfaces, 4 bytes each. -/
def decodeIfs : Nat → Bytes → Option (List (Nat × Nat × Nat) × Bytes)
  | 0, bs => some ([], bs)
  | n + 1, bs => do
    let (r, rest) ← grab 4 bs
    let (is, rest) ← decodeIfs n rest
    return ((field r 0 1, field r 1 1, field r 2 1) :: is, rest)

/-- One entry of the device list: the record and as many interfaces as it announces. -/
def decodeEntry (bs : Bytes) : Option ((DevInfo × List (Nat × Nat × Nat)) × Bytes) := do
  let (d, rest) ← decodeDev bs
  let (is, rest) ← decodeIfs d.numInterfaces rest
  return ((d, is), rest)

/-- `n` entries. -/
def decodeEntries : Nat → Bytes → Option (List (DevInfo × List (Nat × Nat × Nat)) × Bytes)
  | 0, bs => some ([], bs)
  | n + 1, bs => do
    let (e, rest) ← decodeEntry bs
    let (es, rest) ← decodeEntries n rest
    return (e :: es, rest)

/-- The 20-byte header of submit and unlink replies. -/
structure HdrInfo where
  command : Nat
  seqnum : Nat
  devid : Nat
  direction : Nat
  ep : Nat
  deriving DecidableEq, Repr

/-- What a client can learn from a reply. -/
inductive Reply where
  | devlist (status : Nat) (devices : List (DevInfo × List (Nat × Nat × Nat)))
  | import (status : Nat) (device : Option DevInfo)
  | submit (h : HdrInfo) (status actualLength startFrame numberOfPackets errorCount : Nat)
      (data iso : Bytes)
  | unlink (h : HdrInfo) (status : Nat)
  deriving DecidableEq, Repr

/-- `OP_REP_DEVLIST`: version, code 5, status, count, entries. -/
def decodeDevlist (bs : Bytes) : Option (Reply × Bytes) := do
  let (r, rest) ← grab 12 bs
  if field r 0 2 = 0x0111 ∧ field r 2 2 = 0x0005 then
    let (es, rest) ← decodeEntries (field r 8 4) rest
    return (.devlist (field r 4 4) es, rest)
  else none

/-- `OP_REP_IMPORT`: version, code 3, status, and on success one record. -/
def decodeImport (bs : Bytes) : Option (Reply × Bytes) := do
  let (r, rest) ← grab 8 bs
  if field r 0 2 = 0x0111 ∧ field r 2 2 = 0x0003 then
    if field r 4 4 = 0 then
      let (d, rest) ← decodeDev rest
      return (.import 0 (some d), rest)
    else return (.import (field r 4 4) none, rest)
  else none

/-- The header at its documented offsets. -/
def readHdr (r : Bytes) : HdrInfo where
  command := field r 0 4
  seqnum := field r 4 4
  devid := field r 8 4
  direction := field r 12 4
  ep := field r 16 4

/-- `USBIP_RET_SUBMIT`: 48 bytes, then for an IN transfer (which the client knows from its own
request; the reply repeats it) `actual_length` bytes, then one 16-byte descriptor per ISO packet. -/
def decodeSubmit (bs : Bytes) : Option (Reply × Bytes) := do
  let (r, rest) ← grab 48 bs
  let h := readHdr r
  if h.command = 3 then
    let (data, rest) ← grab (if h.direction = 1 then field r 24 4 else 0) rest
    let np := field r 32 4
    let (iso, rest) ← grab (if np = 0 ∨ np = 4294967295 then 0 else 16 * np) rest
    return (.submit h (field r 20 4) (field r 24 4) (field r 28 4) np (field r 36 4) data iso, rest)
  else none

/-- `USBIP_RET_UNLINK`: 48 bytes. -/
def decodeUnlink (bs : Bytes) : Option (Reply × Bytes) := do
  let (r, rest) ← grab 48 bs
  let h := readHdr r
  if h.command = 4 then return (.unlink h (field r 20 4), rest) else none

/-- The reply to a request the client knows it sent. -/
def decodeReply : Cmd → Bytes → Option (Reply × Bytes)
  | .reqDevlist .. => decodeDevlist
  | .reqImport .. => decodeImport
  | .submit .. => decodeSubmit
  | .unlink .. => decodeUnlink

/-- The whole conversation: one reply per request sent. -/
def decodeAll : List Cmd → Bytes → Option (List Reply × Bytes)
  | [], bs => some ([], bs)
  | c :: cs, bs => do
    let (r, rest) ← decodeReply c bs
    let (rs, rest) ← decodeAll cs rest
    return (r :: rs, rest)

/-! What the client should learn, in terms of the server's values. -/

/-- The information a device's record should carry. -/
def devInfo (d : Device) : DevInfo where
  path := cstr (d.path.take 256)
  busId := cstr (d.busId.take 32)
  busNum := d.busNum.toNat
  devNum := d.devNum.toNat
  speed := d.speed.toNat
  idVendor := d.vendorId.toNat
  idProduct := d.productId.toNat
  bcdDevice := d.deviceBcd.major.toNat * 256 + d.deviceBcd.minor.toNat
  deviceClass := d.deviceClass.toNat
  deviceSubClass := d.deviceSubclass.toNat
  deviceProtocol := d.deviceProtocol.toNat
  configurationValue := d.configurationValue.toNat
  numConfigurations := d.numConfigurations.toNat
  numInterfaces := d.interfaces.length % 256

/-- The interface classes of a device. -/
def ifInfo (d : Device) : List (Nat × Nat × Nat) :=
  d.interfaces.map (fun i =>
    (i.interfaceClass.toNat, i.interfaceSubclass.toNat, i.interfaceProtocol.toNat))

/-- The numbers of a header. -/
def hdrInfo (h : Header) : HdrInfo :=
  ⟨h.command.toNat, h.seqnum.toNat, h.devid.toNat, h.direction.toNat, h.ep.toNat⟩

/-- The content of a reply. -/
def replyInfo : Resp → Reply
  | .repDevlist st _ ds => .devlist st.toNat (ds.map (fun d => (devInfo d, ifInfo d)))
  | .repImport st d => .import st.toNat (d.map devInfo)
  | .retSubmit h st al sf np ec buf iso =>
    .submit (hdrInfo h) st.toNat al.toNat sf.toNat np.toNat ec.toNat buf iso
  | .retUnlink h st => .unlink (hdrInfo h) st.toNat

/-- The field widths of the protocol suffice for this reply: counts and lengths are stated
truthfully, an OUT reply carries no data, and success of an import comes with a device. -/
def Representable : Resp → Prop
  | .repDevlist _ n ds => n.toNat = ds.length ∧ ∀ d ∈ ds, d.interfaces.length ≤ 255
  | .repImport st d => (st.toNat = 0 ↔ d.isSome = true)
  | .retSubmit h _ al _ np _ buf iso =>
    h.command.toNat = 3 ∧ buf.length = (if h.direction.toNat = 1 then al.toNat else 0) ∧
      iso.length = (if np.toNat = 0 ∨ np.toNat = 4294967295 then 0 else 16 * np.toNat)
  | .retUnlink h _ => h.command.toNat = 4

end Usbip.Spec
