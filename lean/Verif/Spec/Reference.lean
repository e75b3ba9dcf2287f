import Verif.Spec.Dispatch
import Verif.Spec.Client
import Verif.Spec.Panics
import Verif.Model.Network
/-!
# A reference server

A USB/IP server written down from the protocol description: requests are cut out of the byte stream
by length and offset, replies are written field by field, a client simply has the device it imported
(there is no table of imported devices and no bus id to look it up by).  It uses none of the model's
functions, only its data types (devices, handlers, events, what becomes of a connection).
-/

namespace Usbip.Spec

open Usbip

/-! ## Requests -/

/-- What a client asks for.  `ids` are the sixteen bytes (sequence number, device id, direction,
endpoint) a reply repeats. -/
inductive Request where
  | list
  | claim (busId : Bytes)
  | transfer (ids : Bytes) (direction endpoint len : Nat) (setup data : Bytes)
  | cancel (ids : Bytes)
  deriving DecidableEq, Repr

/-- What a server makes of the bytes it has. -/
inductive Parsed where
  | request (r : Request) (rest : Bytes)
  /-- more bytes are needed -/
  | incomplete
  /-- not a USB/IP request -/
  | refused
  /-- an assertion fails -/
  | crash
  deriving DecidableEq, Repr

/-- `k` bytes at offset `i`. -/
def slice (bs : Bytes) (i k : Nat) : Bytes := (bs.drop i).take k

/-- How many payload bytes follow a submit: none if the direction is IN. -/
def payload (bs : Bytes) : Nat := if field bs 12 4 = 1 then 0 else field bs 24 4

/-- How many bytes of ISO packet descriptors follow. -/
def isoBytes (bs : Bytes) : Nat :=
  if field bs 32 4 = 0 ∨ field bs 32 4 = 4294967295 then 0 else 16 * field bs 32 4

/-- The first request in a byte stream.  `strict` builds insist on status 0 and direction 0 or 1. -/
def parse (strict : Bool) (bs : Bytes) : Parsed :=
  if bs.length < 2 then .incomplete
  else if field bs 0 2 ≠ 0 ∧ field bs 0 2 ≠ 0x0111 then .refused
  else if bs.length < 4 then .incomplete
  else if field bs 2 2 = 0x8005 then
    if bs.length < 8 then .incomplete
    else if strict = true ∧ field bs 4 4 ≠ 0 then .crash
    else .request .list (bs.drop 8)
  else if field bs 2 2 = 0x8003 then
    if bs.length < 8 then .incomplete
    else if strict = true ∧ field bs 4 4 ≠ 0 then .crash
    else if bs.length < 40 then .incomplete
    else .request (.claim (cstr (slice bs 8 32))) (bs.drop 40)
  else if field bs 2 2 = 1 then
    if 16 ≤ bs.length ∧ strict = true ∧ 1 < field bs 12 4 then .crash
    else if bs.length < 48 then .incomplete
    else if bs.length < 48 + payload bs + isoBytes bs then .incomplete
    else .request (.transfer (slice bs 4 16) (field bs 12 4) (field bs 16 4) (field bs 24 4) (slice bs 40 8)
      (slice bs 48 (payload bs))) (bs.drop (48 + payload bs + isoBytes bs))
  else if field bs 2 2 = 2 then
    if 16 ≤ bs.length ∧ strict = true ∧ 1 < field bs 12 4 then .crash
    else if bs.length < 48 then .incomplete
    else .request (.cancel (slice bs 4 16)) (bs.drop 48)
  else .refused

/-! ## Replies -/

/-- `b` in a field of `n` bytes. -/
def padded (b : Bytes) (n : Nat) : Bytes := b.take n ++ List.replicate (n - b.length) 0

/-- The 312 bytes describing a device. -/
def record (d : Device) : Bytes :=
  padded d.path 256 ++ padded d.busId 32 ++
    layout [(4, d.busNum.toNat), (4, d.devNum.toNat), (4, d.speed.toNat), (2, d.vendorId.toNat),
      (2, d.productId.toNat), (1, d.deviceBcd.major.toNat), (1, d.deviceBcd.minor.toNat),
      (1, d.deviceClass.toNat), (1, d.deviceSubclass.toNat), (1, d.deviceProtocol.toNat),
      (1, d.configurationValue.toNat), (1, d.numConfigurations.toNat), (1, d.interfaces.length)]

/-- A device in the device list: its record and four bytes for each interface. -/
def entry (d : Device) : Bytes :=
  record d ++ d.interfaces.flatMap (fun i => layout [(1, i.interfaceClass.toNat),
    (1, i.interfaceSubclass.toNat), (1, i.interfaceProtocol.toNat), (1, 0)])

/-- The reply to a list request; `strict` builds insist that every record fits its fields. -/
def listing (strict : Bool) (ds : List Device) : Option Bytes :=
  if strict = true ∧ ∃ d ∈ ds, 256 < d.path.length ∨ 32 < d.busId.length then none
  else some (layout [(2, 0x0111), (2, 5), (4, 0), (4, ds.length)] ++ ds.flatMap entry)

/-- The reply to a successful import. -/
def granted (strict : Bool) (d : Device) : Option Bytes :=
  if strict = true ∧ (256 < d.path.length ∨ 32 < d.busId.length) then none
  else some (layout [(2, 0x0111), (2, 3), (4, 0)] ++ record d)

/-- The reply to an import that fails. -/
def denied : Bytes := layout [(2, 0x0111), (2, 3), (4, 1)]

/-- The reply to a transfer: status, length, data. -/
def result (ids : Bytes) (status : Nat) (data : Bytes) : Bytes :=
  layout [(4, 3)] ++ ids ++ layout [(4, status), (4, data.length), (4, 0), (4, 0), (4, 0), (8, 0)] ++ data

/-- The reply to an unlink. -/
def cancelled (ids : Bytes) : Bytes := layout [(4, 4)] ++ ids ++ List.replicate 28 0

/-! ## The server -/

/-- A client and the device it has imported. -/
structure Client where
  input : Stream
  device : Option Device
  sent : Bytes
  status : Status

/-- The server: its free devices in order, the bus ids under which devices were given away, the state
of the handlers, the clients. -/
structure Server (σ : Type) where
  free : List Device
  away : List Bytes
  world : World σ
  clients : Nat → Option Client

/-- The endpoint address a transfer is for. -/
def address (direction endpoint : Nat) : UInt8 :=
  if direction = 0 then UInt8.ofNat (endpoint % 256) else UInt8.ofNat (endpoint % 128 + 128)

/-- Executing a transfer on a device: the reply (none if the task crashes) and the handlers' state
afterwards.  `strict` builds insist that replies to OUT transfers carry no data. -/
def transferred {σ} (env : Env σ) (p : Profile) (w : World σ) (d : Device) (ids : Bytes)
    (direction endpoint len : Nat) (setup data : Bytes) : Option Bytes × World σ :=
  match endpointAt d (address direction endpoint) with
  | none => (some (result ids 1 []), w)
  | some (ep, owner) =>
    match said env p d ep owner (UInt32.ofNat len) (setupAt setup) data w with
    | (.data b, w') =>
      if p.debugAssertions = true ∧ direction ≠ 1 ∧ b.length % 2 ^ 32 ≠ 0 then (none, w')
      else (some (result ids 0 b), w')
    | (.failure, w') => (some (result ids 1 []), w')
    | (.crash, w') => (none, w')

/-- Executing a request for a client that has `device`: the reply (none if the task crashes), the
server afterwards, the client's device afterwards. -/
def Server.answer {σ} (env : Env σ) (p : Profile) (s : Server σ) (device : Option Device) :
    Request → Option Bytes × Server σ × Option Device
  | .list => (listing p.debugAssertions s.free, s, device)
  | .claim id =>
    match s.free.find? (fun d => d.busId == id) with
    | some d =>
      (granted p.debugAssertions d,
        { s with free := s.free.eraseP (fun d => d.busId == id), away := id :: s.away }, some d)
    | none => (some denied, s, none)
  | .transfer ids direction endpoint len setup data =>
    match device with
    | none => (none, s, none)
    | some d =>
      ((transferred env p s.world d ids direction endpoint len setup data).1,
        { s with world := (transferred env p s.world d ids direction endpoint len setup data).2 }, some d)
  | .cancel ids => (some (cancelled ids), s, device)

/-- A client has gone (or is no longer understood): its device is free again, behind the others. -/
def Server.leave {σ} (s : Server σ) (x : Client) (e : ErrKind) : Server σ × Client :=
  ({ s with free := s.free ++ x.device.toList
            away := s.away.filter (fun id => !x.device.toList.any (fun d => d.busId == id)) },
   { x with device := none, status := if e = .unexpectedEof then .closed else .failed e })

/-- A client's task takes the next request and answers it. -/
def Server.turn {σ} (env : Env σ) (p : Profile) (s : Server σ) (x : Client) (w : WriteRes) :
    Server σ × Client :=
  match parse p.debugAssertions x.input.bytes with
  | .request r rest =>
    match s.answer env p x.device r with
    | (some reply, s', device) =>
      match w with
      | .full => (s', { x with input := ⟨rest, x.input.fin⟩, device, sent := x.sent ++ reply })
      | .fail n e =>
        (s', { x with input := ⟨rest, x.input.fin⟩, device, sent := x.sent ++ reply.take n, status := .failed e })
      | .cut n =>
        (s', { x with input := ⟨rest, x.input.fin⟩, device, sent := x.sent ++ reply.take n, status := .cancelled })
    | (none, s', device) => (s', { x with input := ⟨rest, x.input.fin⟩, device, status := .panicked })
  | .incomplete => s.leave x x.input.fin
  | .refused => s.leave x .other
  | .crash => (s, { x with status := .panicked })

/-- The server with client `c` replaced. -/
def Server.set {σ} (s : Server σ) (c : Nat) (x : Client) : Server σ :=
  { s with clients := fun c' => if c' = c then some x else s.clients c' }

/-- One step. -/
def Server.step {σ} (env : Env σ) (p : Profile) (s : Server σ) : Event σ → Server σ
  | .connect c input =>
    if (s.clients c).isSome then s else s.set c ⟨input, none, [], .running⟩
  | .iterate c w =>
    match s.clients c with
    | some x => if x.status = .running then (s.turn env p x w).1.set c (s.turn env p x w).2 else s
    | none => s
  | .cancel c =>
    match s.clients c with
    | some x => if x.status = .running then s.set c { x with status := .cancelled } else s
    | none => s
  | .addDevice d => { s with free := s.free ++ [d] }
  | .removeDevice id => { s with free := s.free.eraseP (fun d => d.busId == id) }
  | .user f crash =>
    { s with world :=
      { user := f s.world.user
        ifPoisoned := fun h => s.world.ifPoisoned h || decide (crash = some (.iface h))
        devPoisoned := fun h => s.world.devPoisoned h || decide (crash = some (.dev h)) } }

/-- A server with some devices and no clients. -/
def Server.start {σ} (devices : List Device) (w : World σ) : Server σ := ⟨devices, [], w, fun _ => none⟩

/-- A whole history. -/
def Server.run {σ} (env : Env σ) (p : Profile) (s : Server σ) (es : List (Event σ)) : Server σ :=
  es.foldl (Server.step env p) s

/-- What `remove_device` returns. -/
def Server.removal {σ} (s : Server σ) (id : Bytes) : Outcome Unit :=
  if ∃ d ∈ s.free, d.busId = id then .ok ()
  else if id ∈ s.away then .err .other
  else .err .notFound

/-- The bus id is neither that of a free device nor that of a device in the hands of a live client. -/
def Server.Unclaimed {σ} (s : Server σ) (id : Bytes) : Prop :=
  (∀ d ∈ s.free, d.busId ≠ id) ∧
  ∀ c x d, s.clients c = some x → x.status = .running → x.device = some d → d.busId ≠ id

/-- Along the history, devices are added only under bus ids nobody can confuse. -/
def Tidy {σ} (env : Env σ) (p : Profile) : Server σ → List (Event σ) → Prop
  | _, [] => True
  | s, e :: es =>
    (match e with
     | .addDevice d => s.Unclaimed d.busId
     | _ => True) ∧ Tidy env p (s.step env p e) es

/-- What is visible of a connection: what it has yet to read, what it has sent, how it stands. -/
def Seen (x : Option Conn) (y : Option Client) : Prop :=
  x.map (fun x => (x.input, x.output, x.status)) = y.map (fun y => (y.input, y.sent, y.status))

/-- The two servers cannot be told apart: the device list, the state of the handlers, what
`remove_device` would return, every connection. -/
structure Alike {σ} (s : Sys σ) (t : Server σ) : Prop where
  free : s.shared.available = t.free
  world : s.shared.world = t.world
  removal : ∀ id, (s.shared.removeDevice id).1 = t.removal id
  conns : ∀ c, Seen (s.conns c) (t.clients c)

/-! ## The server on the network -/

/-- The reference server with clients that send bit by bit; `ended` are those who have ended their side
of the connection. -/
structure Live (σ : Type) where
  server : Server σ
  ended : Nat → Bool

/-- Client `c`'s task has something to do: there is a whole request (or the beginning of something that
can never become one), or nothing more will come. -/
def Live.due {σ} (p : Profile) (l : Live σ) (c : Nat) : Bool :=
  match l.server.clients c with
  | none => false
  | some x => l.ended c || parse p.debugAssertions x.input.bytes != .incomplete

/-- One step. -/
def Live.step {σ} (env : Env σ) (p : Profile) (l : Live σ) : NetEvent σ → Live σ
  | .connect c => { l with server := l.server.step env p (.connect c ⟨[], .unexpectedEof⟩) }
  | .arrive c bs =>
    match l.server.clients c with
    | some x =>
      if l.ended c then l
      else { l with server := l.server.set c { x with input := ⟨x.input.bytes ++ bs, x.input.fin⟩ } }
    | none => l
  | .hangup c e =>
    match l.server.clients c with
    | some x =>
      if l.ended c then l
      else { server := l.server.set c { x with input := ⟨x.input.bytes, e⟩ }
             ended := fun c' => c' == c || l.ended c' }
    | none => l
  | .iterate c w => if l.due p c then { l with server := l.server.step env p (.iterate c w) } else l
  | .cancel c => { l with server := l.server.step env p (.cancel c) }
  | .addDevice d => { l with server := l.server.step env p (.addDevice d) }
  | .removeDevice id => { l with server := l.server.step env p (.removeDevice id) }
  | .user f crash => { l with server := l.server.step env p (.user f crash) }

/-- A server with some devices and no clients. -/
def Live.start {σ} (devices : List Device) (w : World σ) : Live σ := ⟨Server.start devices w, fun _ => false⟩

/-- A whole history. -/
def Live.run {σ} (env : Env σ) (p : Profile) (l : Live σ) (es : List (NetEvent σ)) : Live σ :=
  es.foldl (Live.step env p) l

/-- As `Tidy`. -/
def TidyLive {σ} (env : Env σ) (p : Profile) : Live σ → List (NetEvent σ) → Prop
  | _, [] => True
  | l, e :: es =>
    (match e with
     | .addDevice d => l.server.Unclaimed d.busId
     | _ => True) ∧ TidyLive env p (l.step env p e) es

end Usbip.Spec
