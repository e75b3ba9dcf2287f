import Verif.Model.Protocol
/-!
# src/lib.rs: the server

The state machine of the server at the granularity of handler loop iterations and management
calls.  `Verif.Model.Locks` refines it to individual lock acquisitions.
-/

namespace Usbip

/-! ## `HashMap<String, UsbDevice>` as an association list -/

/-- `HashMap::get`.  src/lib.rs:414, 444. -/
def amGet (k : Bytes) : List (Bytes × Device) → Option Device
  | [] => none
  | (k', d) :: m => if k' = k then some d else amGet k m

/-- `HashMap::remove` (the map part; the removed value is `amGet k`).  src/lib.rs:397. -/
def amErase (k : Bytes) (m : List (Bytes × Device)) : List (Bytes × Device) :=
  m.filter (fun e => e.1 ≠ k)

/-- `HashMap::insert`: replaces (and drops) a previous value.  src/lib.rs:442. -/
def amInsert (k : Bytes) (d : Device) (m : List (Bytes × Device)) : List (Bytes × Device) :=
  (k, d) :: amErase k m

/-- src/lib.rs:43-46 `UsbIpServer`, together with the handler objects its devices refer to. -/
structure Shared (σ : Type) where
  available : List Device
  used : List (Bytes × Device)
  world : World σ

/-- src/lib.rs:50-55 `new_simulated` (and the `Default` server for `[]`). -/
def Shared.newSimulated {σ} (devices : List Device) (w : World σ) : Shared σ :=
  { available := devices, used := [], world := w }

/-- src/lib.rs:356-358 `add_device`. -/
def Shared.addDevice {σ} (s : Shared σ) (d : Device) : Shared σ :=
  { s with available := s.available ++ [d] }

/-- `iter().position(f)` + `remove(i)` (src/lib.rs:363-364), and the loop with `remove(i)` and
`break` at src/lib.rs:438-447: split off the first device with the given bus id. -/
def takeFirst (busId : Bytes) : List Device → Option (Device × List Device)
  | [] => none
  | d :: ds =>
    if d.busId = busId then some (d, ds)
    else
      match takeFirst busId ds with
      | some (x, rest) => some (x, d :: rest)
      | none => none

/-- src/lib.rs:360-383 `remove_device`. -/
def Shared.removeDevice {σ} (s : Shared σ) (busId : Bytes) : Outcome Unit × Shared σ :=
  match takeFirst busId s.available with
  | some (_, rest) => (.ok (), { s with available := rest })
  | none =>
    if s.used.any (fun e => e.2.busId == busId) then (.err .other, s)
    else (.err .notFound, s)

/-- src/lib.rs:436-437: `&busid[..busid.iter().position(|&x| x == 0).unwrap_or(busid.len())]`. -/
def busidCompare (busid : Bytes) : Bytes := busid.takeWhile (fun x => x != 0)

/-- src/lib.rs:427-456: the `OpReqImport` arm up to the reply: the reply, the new state and the
connection's new `current_import_device_id`. -/
def Shared.import {σ} (s : Shared σ) (busid : Bytes) : Resp × Shared σ × Option Bytes :=
  match takeFirst (busidCompare busid) s.available with
  | some (dev, rest) =>
    (opRepImportSuccess dev,
      { s with available := rest, used := amInsert dev.busId dev s.used },
      some dev.busId)
  | none => (opRepImportFail, s, none)

/-- src/lib.rs:467-506: executing a submit on the connection's device. -/
def Shared.submit {σ} (env : Env σ) (p : Profile) (s : Shared σ) (device : Device)
    (header : Header) (len : UInt32) (setup data : Bytes) : Outcome Resp × Shared σ :=
  let out := header.direction == 0
  let realEp := if out then header.ep else header.ep ||| 0x80
  let header := { header with command := USBIP_RET_SUBMIT.toUInt32 }
  match device.findEp realEp.toUInt8 with
  | none => (.ok (usbipRetSubmitFail header), s)
  | some (ep, intf) =>
    match device.handleUrb env p ep intf len (SetupPacket.parse setup) data s.world with
    | (.ok resp, w) => (.ok (usbipRetSubmitSuccess header 0 0 resp []), { s with world := w })
    | (.err _, w) => (.ok (usbipRetSubmitFail header), { s with world := w })
    | (.panic, w) => (.panic, { s with world := w })
    | (.diverge, w) => (.diverge, { s with world := w })

/-- src/lib.rs:411-522: one command on a connection whose `current_import_device_id` is `cur`:
the reply to send (or a panic), the new server state, the connection's new imported id. -/
def Shared.serve {σ} (env : Env σ) (p : Profile) (s : Shared σ) (cur : Option Bytes) :
    Cmd → Outcome Resp × Shared σ × Option Bytes
  | .reqDevlist _ => (.ok (opRepDevlist s.available), s, cur)
  | .reqImport _ busid =>
    let (r, s', cur') := s.import busid
    (.ok r, s', cur')
  | .submit header _ len _ _ _ setup data _ =>
    match cur.bind (fun id => amGet id s.used) with
    | none => (.panic, s, cur)
    | some device =>
      let (r, s') := s.submit env p device header len setup data
      (r, s', cur)
  | .unlink header _ =>
    (.ok (usbipRetUnlinkSuccess { header with command := USBIP_RET_UNLINK.toUInt32 }), s, cur)

/-- src/lib.rs:394-401: giving the device back when reading fails; `none` is `unreachable!()`. -/
def Shared.release {σ} (s : Shared σ) : Option Bytes → Option (Shared σ)
  | none => some s
  | some id =>
    match amGet id s.used with
    | some dev => some { s with available := s.available ++ [dev], used := amErase id s.used }
    | none => none

/-! ## Connections -/

/-- What has become of a connection's task (src/lib.rs:536-539). -/
inductive Status where
  /-- still in the loop of `handler` -/
  | running
  /-- `handler` returned `Ok(())` -/
  | closed
  /-- `handler` returned `Err` -/
  | failed (e : ErrKind)
  /-- the task panicked -/
  | panicked
  /-- the task was aborted / dropped -/
  | cancelled
  deriving DecidableEq, Repr

/-- Local state of one call of `handler` (src/lib.rs:386-390).  `served` is a ghost: the commands
read so far with their replies. -/
structure Conn where
  input : Stream
  current : Option Bytes
  output : Bytes
  status : Status
  served : List (Cmd × Resp)

/-- src/lib.rs:533-537: a fresh connection. -/
def Conn.new (input : Stream) : Conn :=
  { input, current := none, output := [], status := .running, served := [] }

/-- How `write_all` goes: everything is sent, or the socket fails after some bytes, or the task is
dropped (`write_all(..).await` is an await point) after some bytes.  src/usbip_protocol.rs:421, awaited at
src/lib.rs:423-424, 454, 507, 519. -/
inductive WriteRes where
  | full
  | fail (sent : Nat) (e : ErrKind)
  | cut (sent : Nat)
  deriving DecidableEq, Repr

/-- One iteration of the loop at src/lib.rs:391-523 (with `write_to_socket`,
src/usbip_protocol.rs:420-422). -/
def Conn.iterate {σ} (env : Env σ) (p : Profile) (s : Shared σ) (c : Conn) (w : WriteRes) :
    Shared σ × Conn :=
  match readCommand p c.input with
  | .ok (cmd, rest) =>
    match s.serve env p c.current cmd with
    | (.ok resp, s', cur') =>
      match resp.toBytes p with
      | .ok bytes =>
        match w with
        | .full =>
          (s', { c with input := rest, current := cur', output := c.output ++ bytes
                        served := c.served ++ [(cmd, resp)] })
        | .fail sent e =>
          (s', { c with input := rest, current := cur', output := c.output ++ bytes.take sent
                        status := .failed e })
        | .cut sent =>
          (s', { c with input := rest, current := cur', output := c.output ++ bytes.take sent
                        status := .cancelled })
      | _ => (s', { c with input := rest, current := cur', status := .panicked })
    | (_, s', cur') => (s', { c with input := rest, current := cur', status := .panicked })
  | .err e =>
    match s.release c.current with
    | some s' =>
      (s', { c with current := none
                    status := if e = .unexpectedEof then .closed else .failed e })
    | none => (s, { c with status := .panicked })
  | _ => (s, { c with status := .panicked })

/-! ## The whole server -/

/-- The server and all connections ever accepted.  src/lib.rs:43-46, 532-539. -/
structure Sys (σ : Type) where
  shared : Shared σ
  conns : Nat → Option Conn

/-- What can happen next.  src/lib.rs:356-549. -/
inductive Event (σ : Type) where
  /-- a client connects; `input` is everything it will ever send -/
  | connect (c : Nat) (input : Stream)
  /-- connection `c`'s task runs one loop iteration -/
  | iterate (c : Nat) (w : WriteRes)
  /-- connection `c`'s task is aborted at an await point -/
  | cancel (c : Nat)
  /-- the application calls `add_device` -/
  | addDevice (d : Device)
  /-- the application calls `remove_device` -/
  | removeDevice (busId : Bytes)
  /-- the application (or the outside world) changes handler state; with `crash`, it panics while it
  holds that handler's mutex -/
  | user (f : σ → σ) (crash : Option HandlerId := none)

/-- Update one connection.  The local state of one task of src/lib.rs:536-539. -/
def setConn (conns : Nat → Option Conn) (c : Nat) (x : Conn) : Nat → Option Conn :=
  fun c' => if c' = c then some x else conns c'

/-- One step of the server (src/lib.rs:356-383, 386-524, 527-549).  Events that cannot happen
(a connection id used twice, a step of a finished connection) leave the state unchanged. -/
def Sys.step {σ} (env : Env σ) (p : Profile) (s : Sys σ) : Event σ → Sys σ
  | .connect c input =>
    match s.conns c with
    | some _ => s
    | none => { s with conns := setConn s.conns c (Conn.new input) }
  | .iterate c w =>
    match s.conns c with
    | some x =>
      if x.status = .running then
        let (sh, x') := x.iterate env p s.shared w
        { shared := sh, conns := setConn s.conns c x' }
      else s
    | none => s
  | .cancel c =>
    match s.conns c with
    | some x =>
      if x.status = .running then
        { s with conns := setConn s.conns c { x with status := .cancelled } }
      else s
    | none => s
  | .addDevice d => { s with shared := s.shared.addDevice d }
  | .removeDevice id => { s with shared := (s.shared.removeDevice id).2 }
  | .user f crash => { s with shared := { s.shared with world := s.shared.world.used f crash } }

/-- A server before any connection.  src/lib.rs:50-55. -/
def Sys.init {σ} (devices : List Device) (w : World σ) : Sys σ :=
  { shared := Shared.newSimulated devices w, conns := fun _ => none }

/-- A whole history.  src/lib.rs:386-549. -/
def Sys.run {σ} (env : Env σ) (p : Profile) (s : Sys σ) (es : List (Event σ)) : Sys σ :=
  es.foldl (Sys.step env p) s

end Usbip
