import Verif.Model.Server
/-!
# src/lib.rs: the server at the level of individual lock operations

`UsbIpServer` (src/lib.rs:43-46) keeps its two tables behind two `tokio::sync::RwLock`s.  Here
every loop iteration of `handler` and every management call is a program of single steps (lock,
unlock, read one table, write one table, run a handler, send), and any number of programs run
interleaved in any order.

The locks are tokio's: waiters are served first come first served, a reader does not overtake a
waiting writer (`tokio::sync::RwLock`, "fair (or write-preferring)").  Simplification: the limit of
2^29 - 1 concurrent readers is ignored.
-/

namespace Usbip

/-- The two locks of src/lib.rs:44-45. -/
inductive Lk where
  | used
  | avail
  deriving DecidableEq, Repr

/-- `read()` or `write()`.  src/lib.rs:357, 361, 366-369, 395-396, 411, 419, 434-435. -/
inductive Mode where
  | r
  | w
  deriving DecidableEq, Repr

/-- What a program ends with: an iteration of `handler` with the connection's new local state, a
management call with what it returns to the application (`add_device` returns nothing: `Ok`). 
src/lib.rs:356-524. -/
inductive Ended where
  | conn (x : Conn)
  | call (r : Outcome Unit)

/-- The connection's new local state, of a program that is an iteration of `handler`.  src/lib.rs:390: the
local variable, and whether the task has ended. -/
def Ended.conn? : Ended → Option Conn
  | .conn x => some x
  | .call _ => none

/-- A program.  `commit f k` is the step at which handler code runs (`f` on the handlers' state,
held by their own mutexes); programs that run no handler have it with `f = id`, marking the point
from which they hold all the locks they ever take.  `send` is waiting for the socket to accept the
reply.  `done` carries what the program ends with.  The `await`s of src/lib.rs:356-524 are its lock and send
steps. -/
inductive Task (σ : Type) where
  | done (x : Ended)
  | lock (l : Lk) (m : Mode) (k : Task σ)
  | unlock (l : Lk) (k : Task σ)
  | getUsed (k : List (Bytes × Device) → Task σ)
  | getAvail (k : List Device → Task σ)
  | putUsed (v : List (Bytes × Device)) (k : Task σ)
  | putAvail (v : List Device) (k : Task σ)
  | commit (f : World σ → World σ) (k : World σ → Task σ)
  | send (k : Task σ)

/-- What becomes of a connection after a command was answered by `r` (src/lib.rs:424, 457, 507, 520:
`write_to_socket(socket).await?`, with `to_bytes` at src/usbip_protocol.rs:420-422). -/
def Conn.finish (p : Profile) (x : Conn) (rest : Stream) (cmd : Cmd) (w : WriteRes)
    (cur : Option Bytes) : Outcome Resp → Conn
  | .ok resp =>
    match resp.toBytes p with
    | .ok bytes =>
      match w with
      | .full => { x with input := rest, current := cur, output := x.output ++ bytes
                          served := x.served ++ [(cmd, resp)] }
      | .fail sent e => { x with input := rest, current := cur, output := x.output ++ bytes.take sent
                                 status := .failed e }
      | .cut sent => { x with input := rest, current := cur, output := x.output ++ bytes.take sent
                              status := .cancelled }
    | _ => { x with input := rest, current := cur, status := .panicked }
  | _ => { x with input := rest, current := cur, status := .panicked }

/-- src/lib.rs:411-425: `used_devices.read()`, `available_devices.read()`, reply, end of scope. -/
def devlistTask {σ} (p : Profile) (x : Conn) (rest : Stream) (cmd : Cmd) (w : WriteRes) : Task σ :=
  .lock .used .r <| .lock .avail .r <| .commit id fun _ =>
  .getAvail fun a => .send <| .unlock .avail <| .unlock .used <|
  .done (.conn (x.finish p rest cmd w x.current (.ok (opRepDevlist a))))

/-- src/lib.rs:411, 427-459: the first guard is dropped at 432, then both write guards are held
until the reply is sent. -/
def importTask {σ} (p : Profile) (x : Conn) (rest : Stream) (cmd : Cmd) (busid : Bytes)
    (w : WriteRes) : Task σ :=
  .lock .used .r <| .unlock .used <|
  .lock .used .w <| .lock .avail .w <| .commit id fun _ =>
  .getAvail fun a =>
  match takeFirst (busidCompare busid) a with
  | some (dev, rest') =>
    .putAvail rest' <| .getUsed fun u => .putUsed (amInsert dev.busId dev u) <|
    .send <| .unlock .avail <| .unlock .used <|
    .done (.conn (x.finish p rest cmd w (some dev.busId) (.ok (opRepImportSuccess dev))))
  | none =>
    .send <| .unlock .avail <| .unlock .used <|
    .done (.conn (x.finish p rest cmd w none (.ok opRepImportFail)))

/-- src/lib.rs:411-414, 461-509: the read guard on the used devices is held while the handler runs
and until the reply is sent.  A panic drops the guard. -/
def submitTask {σ} (env : Env σ) (p : Profile) (x : Conn) (rest : Stream) (cmd : Cmd)
    (header : Header) (len : UInt32) (setup data : Bytes) (w : WriteRes) : Task σ :=
  .lock .used .r <| .getUsed fun u =>
  match x.current.bind (fun id => amGet id u) with
  | none => .commit id fun _ => .unlock .used <|
      .done (.conn (x.finish p rest cmd w x.current .panic))
  | some device =>
    .commit (fun wd => (Shared.submit env p ⟨[], [], wd⟩ device header len setup data).2.world) fun wd =>
    .send <| .unlock .used <|
    .done (.conn (x.finish p rest cmd w x.current
      (Shared.submit env p ⟨[], [], wd⟩ device header len setup data).1))

/-- src/lib.rs:411, 510-521. -/
def unlinkTask {σ} (p : Profile) (x : Conn) (rest : Stream) (cmd : Cmd) (header : Header)
    (w : WriteRes) : Task σ :=
  .lock .used .r <| .commit id fun _ => .send <| .unlock .used <|
  .done (.conn (x.finish p rest cmd w x.current
    (.ok (usbipRetUnlinkSuccess { header with command := USBIP_RET_UNLINK.toUInt32 }))))

/-- src/lib.rs:393-409: giving the device back. -/
def releaseTask {σ} (x : Conn) (e : ErrKind) : Task σ :=
  let over : Conn := { x with current := none, status := if e = .unexpectedEof then .closed else .failed e }
  match x.current with
  | none => .commit id fun _ => .done (.conn over)
  | some id' =>
    .lock .used .w <| .lock .avail .w <| .commit id fun _ =>
    .getUsed fun u =>
    match amGet id' u with
    | some dev =>
      .putUsed (amErase id' u) <| .getAvail fun a => .putAvail (a ++ [dev]) <|
      .unlock .avail <| .unlock .used <| .done (.conn over)
    | none => .unlock .avail <| .unlock .used <| .done (.conn { x with status := .panicked })

/-- src/lib.rs:391-523: one loop iteration, after `read_from_socket`. -/
def iterTask {σ} (env : Env σ) (p : Profile) (x : Conn) (w : WriteRes) : Task σ :=
  match readCommand p x.input with
  | .ok (.reqDevlist s, rest) => devlistTask p x rest (.reqDevlist s) w
  | .ok (.reqImport s b, rest) => importTask p x rest (.reqImport s b) b w
  | .ok (.submit h f len sf np iv setup data iso, rest) =>
    submitTask env p x rest (.submit h f len sf np iv setup data iso) h len setup data w
  | .ok (.unlink h n, rest) => unlinkTask p x rest (.unlink h n) h w
  | .err e => releaseTask x e
  | _ => .commit id fun _ => .done (.conn { x with status := .panicked })

/-- src/lib.rs:356-358 `add_device`. -/
def addTask {σ} (d : Device) : Task σ :=
  .lock .avail .w <| .commit id fun _ => .getAvail fun a => .putAvail (a ++ [d]) <|
  .unlock .avail <| .done (.call (.ok ()))

/-- src/lib.rs:360-383 `remove_device`: the used devices are only looked at if the device is not
available, with the write guard on the available devices still held. -/
def removeTask {σ} (id' : Bytes) : Task σ :=
  .lock .avail .w <| .getAvail fun a =>
  match takeFirst id' a with
  | some (_, rest) => .commit id fun _ => .putAvail rest <| .unlock .avail <| .done (.call (.ok ()))
  | none => .lock .used .r <| .commit id fun _ => .getUsed fun u =>
      .unlock .used <| .unlock .avail <|
      .done (.call (if u.any (fun e => e.2.busId == id') then .err .other else .err .notFound))

/-- A program in flight.  A future of src/lib.rs:356-524 between two polls, with the guards it holds. -/
structure Flight (σ : Type) where
  /-- what it is an execution of -/
  ev : Event σ
  /-- the connection whose loop it is -/
  owner : Option Nat
  code : Task σ
  held : Lk → Option Mode
  /-- it is in the queue of the lock it is about to take -/
  waiting : Bool
  committed : Bool

/-- The server, its connections, the programs in flight and the queues of the locks.  src/lib.rs:43-46; the
queues are those of tokio `RwLock` (src/lib.rs:15). -/
structure Cfg (σ : Type) where
  shared : Shared σ
  conns : Nat → Option Conn
  flights : Nat → Option (Flight σ)
  queue : Lk → List Nat

/-- Nothing in flight.  src/lib.rs:50-55. -/
def Cfg.init {σ} (devices : List Device) (w : World σ) : Cfg σ :=
  { shared := Shared.newSimulated devices w, conns := fun _ => none, flights := fun _ => none
    queue := fun _ => [] }

/-- Update a function at one point.  Used for the queues of src/lib.rs:44-45. -/
def upd {α β} [DecidableEq α] (f : α → β) (a : α) (b : β) : α → β := fun x => if x = a then b else f x

/-- A lock can be taken in mode `m` next to a guard of mode `h`.  tokio `RwLock` (src/lib.rs:44-45). -/
def compatible : Mode → Mode → Bool
  | .r, .r => true
  | _, _ => false

/-- Connection `c` has no iteration in flight.  The next iteration of the loop of src/lib.rs:391-523 can
begin. -/
def Cfg.idle {σ} (s : Cfg σ) (c : Nat) : Prop := ∀ t f, s.flights t = some f → f.owner ≠ some c

/-- Replace the program in flight with number `t`.  A task makes progress in src/lib.rs:356-524. -/
def Cfg.put {σ} (s : Cfg σ) (t : Nat) (f : Option (Flight σ)) : Cfg σ :=
  { s with flights := upd s.flights t f }

/-- A program that has not done anything yet.  src/lib.rs:357, 361, 392: before the first lock. -/
def Flight.start {σ} (ev : Event σ) (owner : Option Nat) (code : Task σ) : Flight σ :=
  { ev, owner, code, held := fun _ => none, waiting := false, committed := false }

/-- The connections after a program has ended with `x`.  src/lib.rs:390-410, 443: `current_import_device_id`
and the end of the task. -/
def finished (conns : Nat → Option Conn) (owner : Option Nat) (x : Ended) : Nat → Option Conn :=
  match owner, x with
  | some c, .conn y => setConn conns c y
  | _, _ => conns

/-- The connections after the task of `owner` was dropped.  The task spawned at src/lib.rs:536-539; no code
of src/lib.rs:386-524 runs then. -/
def dropped (conns : Nat → Option Conn) (owner : Option Nat) : Nat → Option Conn :=
  match owner with
  | none => conns
  | some c =>
    match conns c with
    | some x => setConn conns c { x with status := .cancelled }
    | none => conns

/-- What can be seen of a step (a ghost): program `t` starts as an execution of an event, the effect
of its event takes place, it does something else (asks for a lock, gets it, releases it, reads or
writes a table, sends), it ends, it is dropped; or something outside the programs happens.  The operations
are those of src/lib.rs:356-524. -/
inductive Label (σ : Type) where
  | start (t : Nat) (ev : Event σ)
  | effect (t : Nat) (ev : Event σ)
  | inner (t : Nat)
  | ended (t : Nat)
  | dropped (t : Nat) (owner : Option Nat)
  | outside (ev : Event σ)

/-- The server event that takes place in a step.  One iteration of src/lib.rs:391-523, or one call at
src/lib.rs:356-383. -/
def Label.event {σ} : Label σ → Option (Event σ)
  | .effect _ ev => some ev
  | .dropped _ o => o.map .cancel
  | .outside ev => some ev
  | _ => none

/-- One step.  `request`: a task asks for a lock and is queued.  `grant`: the first in the queue
gets the lock when nobody's guard is in the way.  `abandon`: a task is dropped before it has had an
effect; its guards and its place in a queue go with it.  A task that is dropped while it sends a
reply is an `iterate` whose write is `cut`.  `cancel`: a connection is dropped while waiting for a
command.

The second argument is a ghost label.  src/lib.rs:356-524, with tokio `RwLock` (fair: first come, first
served). -/
inductive Cfg.Step {σ} (env : Env σ) (p : Profile) : Cfg σ → Label σ → Cfg σ → Prop
  | connect (s : Cfg σ) (c : Nat) (input : Stream) (h : s.conns c = none) :
      Step env p s (.outside (.connect c input)) { s with conns := setConn s.conns c (Conn.new input) }
  | user (s : Cfg σ) (f : σ → σ) (crash : Option HandlerId) : Step env p s (.outside (.user f crash))
      { s with shared := { s.shared with world := s.shared.world.used f crash } }
  | iterate (s : Cfg σ) (t c : Nat) (w : WriteRes) (x : Conn) (ht : s.flights t = none)
      (hc : s.conns c = some x) (hr : x.status = .running) (hi : s.idle c) :
      Step env p s (.start t (.iterate c w)) (s.put t (some (Flight.start (.iterate c w) (some c) (iterTask env p x w))))
  | add (s : Cfg σ) (t : Nat) (d : Device) (ht : s.flights t = none) :
      Step env p s (.start t (.addDevice d)) (s.put t (some (Flight.start (.addDevice d) none (addTask d))))
  | remove (s : Cfg σ) (t : Nat) (id' : Bytes) (ht : s.flights t = none) :
      Step env p s (.start t (.removeDevice id')) (s.put t (some (Flight.start (.removeDevice id') none (removeTask id'))))
  | request (s : Cfg σ) (t : Nat) (f : Flight σ) (l : Lk) (m : Mode) (k : Task σ)
      (ht : s.flights t = some f) (hk : f.code = .lock l m k) (hw : f.waiting = false) :
      Step env p s (.inner t) { s.put t (some { f with waiting := true }) with queue := upd s.queue l (s.queue l ++ [t]) }
  | grant (s : Cfg σ) (t : Nat) (f : Flight σ) (l : Lk) (m : Mode) (k : Task σ) (q : List Nat)
      (ht : s.flights t = some f) (hk : f.code = .lock l m k) (hw : f.waiting = true)
      (hq : s.queue l = t :: q)
      (hc : ∀ u g h, s.flights u = some g → g.held l = some h → compatible m h = true) :
      Step env p s (.inner t) { s.put t (some { f with code := k, waiting := false, held := upd f.held l (some m) })
        with queue := upd s.queue l q }
  | unlock (s : Cfg σ) (t : Nat) (f : Flight σ) (l : Lk) (k : Task σ)
      (ht : s.flights t = some f) (hk : f.code = .unlock l k) :
      Step env p s (.inner t) (s.put t (some { f with code := k, held := upd f.held l none }))
  | getUsed (s : Cfg σ) (t : Nat) (f : Flight σ) (k) (ht : s.flights t = some f) (hk : f.code = .getUsed k) :
      Step env p s (.inner t) (s.put t (some { f with code := k s.shared.used }))
  | getAvail (s : Cfg σ) (t : Nat) (f : Flight σ) (k) (ht : s.flights t = some f) (hk : f.code = .getAvail k) :
      Step env p s (.inner t) (s.put t (some { f with code := k s.shared.available }))
  | putUsed (s : Cfg σ) (t : Nat) (f : Flight σ) (v k) (ht : s.flights t = some f) (hk : f.code = .putUsed v k) :
      Step env p s (.inner t) { s.put t (some { f with code := k }) with shared := { s.shared with used := v } }
  | putAvail (s : Cfg σ) (t : Nat) (f : Flight σ) (v k) (ht : s.flights t = some f) (hk : f.code = .putAvail v k) :
      Step env p s (.inner t) { s.put t (some { f with code := k }) with shared := { s.shared with available := v } }
  | commit (s : Cfg σ) (t : Nat) (f : Flight σ) (g k) (ht : s.flights t = some f) (hk : f.code = .commit g k) :
      Step env p s (.effect t f.ev) { s.put t (some { f with code := k s.shared.world, committed := true })
        with shared := { s.shared with world := g s.shared.world } }
  | send (s : Cfg σ) (t : Nat) (f : Flight σ) (k) (ht : s.flights t = some f) (hk : f.code = .send k) :
      Step env p s (.inner t) (s.put t (some { f with code := k }))
  | finish (s : Cfg σ) (t : Nat) (f : Flight σ) (x) (ht : s.flights t = some f) (hk : f.code = .done x) :
      Step env p s (.ended t) { s.put t none with conns := finished s.conns f.owner x }
  | abandon (s : Cfg σ) (t : Nat) (f : Flight σ) (ht : s.flights t = some f) (hc : f.committed = false) :
      Step env p s (.dropped t f.owner) { s.put t none with
        queue := fun l => (s.queue l).filter (fun u => u ≠ t), conns := dropped s.conns f.owner }
  | cancel (s : Cfg σ) (c : Nat) (x : Conn) (hc : s.conns c = some x) (hr : x.status = .running) (hi : s.idle c) :
      Step env p s (.outside (.cancel c)) { s with conns := setConn s.conns c { x with status := .cancelled } }

/-- What can be reached, with the labels of the steps on the way, in order.  Executions of
src/lib.rs:356-524. -/
inductive Cfg.Reach {σ} (env : Env σ) (p : Profile) (s0 : Cfg σ) : List (Label σ) → Cfg σ → Prop
  | refl : Reach env p s0 [] s0
  | tail {ls s lb s'} (h : Reach env p s0 ls s) (st : Cfg.Step env p s lb s') :
      Reach env p s0 (ls ++ [lb]) s'

end Usbip
