import Verif.Model.Server
/-!
# src/lib.rs: the server on sockets that deliver their bytes over time

In `Verif.Model.Server` a connection is given everything its client will ever send when it is
accepted.  Here bytes arrive one piece at a time, in reaction to anything, and a loop iteration
waits (`read_exact(..).await`) while the packet it is reading is incomplete.
-/

namespace Usbip

/-- The bytes of an open socket that have arrived and have not been read.  What `socket` offers at
src/lib.rs:392 while the client is connected. -/
structure Arrived where
  bytes : Bytes
  deriving DecidableEq, Repr

/-- tokio `read_exact` on an open socket: it does not return before enough bytes have arrived. 
src/usbip_protocol.rs:148-239. -/
def Arrived.readExact (n : Nat) (s : Arrived) : Outcome (Bytes × Arrived) :=
  if n ≤ s.bytes.length then .ok (s.bytes.take n, { bytes := s.bytes.drop n }) else .diverge

/-- A socket whose client is still there (src/lib.rs:392). -/
instance : Source Arrived := ⟨Arrived.readExact⟩

/-- The server, its connections with the bytes that have arrived so far, and which clients have
ended their side of the connection, with what effect on reads (`unexpectedEof` for an orderly
close).  `fin` of a connection's `input` is without meaning until its client has ended.  src/lib.rs:43-46,
and the sockets of src/lib.rs:532-533. -/
structure Net (σ : Type) where
  sys : Sys σ
  ended : Nat → Option ErrKind

/-- What can happen next.  src/lib.rs:356-549. -/
inductive NetEvent (σ : Type) where
  /-- a client connects (src/lib.rs:531-537) -/
  | connect (c : Nat)
  /-- bytes arrive from the client -/
  | arrive (c : Nat) (bytes : Bytes)
  /-- the client closes the connection, or the socket fails -/
  | hangup (c : Nat) (e : ErrKind)
  /-- connection `c`'s task is scheduled -/
  | iterate (c : Nat) (w : WriteRes)
  | cancel (c : Nat)
  | addDevice (d : Device)
  | removeDevice (busId : Bytes)
  | user (f : σ → σ) (crash : Option HandlerId := none)

/-- `read_from_socket(..).await` returns now (src/lib.rs:392). -/
def Net.ready {σ} (p : Profile) (s : Net σ) (c : Nat) : Bool :=
  match s.sys.conns c with
  | none => false
  | some x =>
    match s.ended c with
    | some _ => true
    | none =>
      match (readCommand p : Rd Arrived Cmd) ⟨x.input.bytes⟩ with
      | .diverge => false
      | _ => true

/-- One step.  An iteration that still waits for bytes changes nothing: nothing has been read by
the task that is kept anywhere but in its own buffers, which are modelled as not yet taken from
the socket.  Events that cannot happen leave the state unchanged.  src/lib.rs:386-524. -/
def Net.step {σ} (env : Env σ) (p : Profile) (s : Net σ) : NetEvent σ → Net σ
  | .connect c => { s with sys := s.sys.step env p (.connect c ⟨[], .unexpectedEof⟩) }
  | .arrive c bs =>
    match s.sys.conns c, s.ended c with
    | some x, none =>
      { s with sys := { s.sys with
          conns := setConn s.sys.conns c { x with input := ⟨x.input.bytes ++ bs, x.input.fin⟩ } } }
    | _, _ => s
  | .hangup c e =>
    match s.sys.conns c, s.ended c with
    | some x, none =>
      { sys := { s.sys with conns := setConn s.sys.conns c { x with input := ⟨x.input.bytes, e⟩ } }
        ended := fun c' => if c' = c then some e else s.ended c' }
    | _, _ => s
  | .iterate c w => if s.ready p c then { s with sys := s.sys.step env p (.iterate c w) } else s
  | .cancel c => { s with sys := s.sys.step env p (.cancel c) }
  | .addDevice d => { s with sys := s.sys.step env p (.addDevice d) }
  | .removeDevice id => { s with sys := s.sys.step env p (.removeDevice id) }
  | .user f crash => { s with sys := s.sys.step env p (.user f crash) }

/-- A server before any connection.  src/lib.rs:50-55. -/
def Net.init {σ} (devices : List Device) (w : World σ) : Net σ :=
  { sys := Sys.init devices w, ended := fun _ => none }

/-- A whole history.  src/lib.rs:386-549. -/
def Net.run {σ} (env : Env σ) (p : Profile) (s : Net σ) (es : List (NetEvent σ)) : Net σ :=
  es.foldl (Net.step env p) s

end Usbip
