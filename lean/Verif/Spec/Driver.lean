import Verif.Spec.Client
import Verif.Spec.Server
import Verif.Spec.Machine
/-!
# Specification: a Linux host that attaches a device (C92)

The other side of the wire, written from the Linux sources: the `usbip attach` tool
(tools/usb/usbip/src/usbip_attach.c `query_import_device`, usbip_network.c `usbip_net_recv_op_common`) and the
kernel driver `vhci_hcd` (drivers/usb/usbip/vhci_hcd.c `vhci_tx_urb`, `vhci_urb_dequeue`, vhci_tx.c
`vhci_send_cmd_submit`, `vhci_send_cmd_unlink`, vhci_rx.c `vhci_rx_pdu`, `vhci_recv_ret_submit`,
`vhci_recv_ret_unlink`, usbip_common.c `usbip_recv_xbuff`, `usbip_recv_iso`).  It uses no function of the
model.  Simplifications: the driver sends what it has queued right away and in order (`vhci_tx_loop` may send an
unlink before a submit that was queued before it, but not before the submit it names); it takes any number that
is not in use for a request, of which the kernel's counter is a special case; the lengths in the
descriptors of isochronous packets are not looked at.
-/

namespace Usbip.Spec
open Usbip

/-- A transfer the host's USB core asks the driver for. -/
structure Urb where
  input : Bool
  ep : UInt32
  flags : UInt32
  len : UInt32
  startFrame : UInt32
  packets : UInt32
  interval : UInt32
  setup : Bytes
  data : Bytes
  iso : Bytes
  deriving DecidableEq, Repr

/-- The request for it, under a number. -/
def Urb.cmd (devid seq : UInt32) (u : Urb) : Cmd :=
  .submit ⟨1, seq, devid, if u.input then 1 else 0, u.ep⟩ u.flags u.len u.startFrame u.packets u.interval u.setup
    u.data u.iso

/-- The request to cancel the transfer with number `target`. -/
def unlinkCmd (devid seq target : UInt32) : Cmd := .unlink ⟨2, seq, devid, 0, 0⟩ target

/-- A transfer that has been given back to the USB core. -/
structure Returned where
  seq : UInt32
  urb : Urb
  status : Nat
  data : Bytes
  deriving DecidableEq, Repr

inductive Attaching where
  /-- the reply to the import request is awaited -/
  | importing
  /-- the device is there for the host -/
  | attached
  /-- the server has no such device to export -/
  | refused
  /-- the host has seen something that must not happen, and closes the connection -/
  | broken
  deriving DecidableEq, Repr

/-- A host that attaches one device.  `rx`: received, but not yet processed.  `issued`, `said`, `heard` are
ghosts: all transfers asked for, all requests sent, everything received. -/
structure Driver where
  busid : Bytes
  devid : UInt32
  phase : Attaching
  pending : List (UInt32 × Urb)
  unlinks : List (UInt32 × UInt32)
  done : List Returned
  revoked : List (UInt32 × Urb)
  rx : Bytes
  issued : List (UInt32 × Urb)
  said : List Cmd
  heard : Bytes
  deriving DecidableEq, Repr

/-- The host has sent the import request for the device with this (padded) bus id. -/
def Driver.start (busid : Bytes) (devid : UInt32) : Driver :=
  { busid := busid, devid := devid, phase := .importing, pending := [], unlinks := [], done := [], revoked := [],
    rx := [], issued := [], said := [.reqImport 0 busid], heard := [] }

/-- `usbip_net_recv_op_common` and `query_import_device`: the reply to the import request, once it is there. -/
def Driver.import (d : Driver) : Option Driver :=
  if d.rx.length < 8 then none
  else if field d.rx 0 2 ≠ 0x0111 ∨ field d.rx 2 2 ≠ 3 then some { d with phase := .broken }
  else if field d.rx 4 4 ≠ 0 then some { d with phase := .refused, rx := d.rx.drop 8 }
  else if d.rx.length < 320 then none
  else if cstr ((d.rx.drop 264).take 32) ≠ cstr d.busid then some { d with phase := .broken }
  else some { d with phase := .attached, rx := d.rx.drop 320 }

/-- `usbip_recv_xbuff`: how much data follows the reply's header (`size` is an `int`). -/
def Urb.follows (u : Urb) (actual : Nat) : Nat := if u.input ∧ actual < 2 ^ 31 then actual else 0

/-- `vhci_recv_ret_submit`. -/
def Driver.submitted (d : Driver) : Option Driver :=
  match d.pending.find? (fun e => e.1.toNat = field d.rx 4 4) with
  | none => some { d with phase := .broken }
  | some (seq, u) =>
    if u.len.toNat < u.follows (field d.rx 24 4) then some { d with phase := .broken }
    else if d.rx.length < 48 + u.follows (field d.rx 24 4) + 16 * field d.rx 32 4 then none
    else some { d with
      pending := d.pending.eraseP (fun e => e.1.toNat = field d.rx 4 4)
      done := d.done ++ [⟨seq, u, field d.rx 20 4, (d.rx.drop 48).take (u.follows (field d.rx 24 4))⟩]
      rx := d.rx.drop (48 + u.follows (field d.rx 24 4) + 16 * field d.rx 32 4) }

/-- `vhci_recv_ret_unlink`. -/
def Driver.unlinked (d : Driver) : Driver :=
  match d.unlinks.find? (fun e => e.1.toNat = field d.rx 4 4) with
  | none => { d with rx := d.rx.drop 48 }
  | some (_, target) =>
    match d.pending.find? (fun e => e.1 = target) with
    | none => { d with unlinks := d.unlinks.eraseP (fun e => e.1.toNat = field d.rx 4 4), rx := d.rx.drop 48 }
    | some e => { d with
        unlinks := d.unlinks.eraseP (fun e => e.1.toNat = field d.rx 4 4)
        pending := d.pending.eraseP (fun e => e.1 = target)
        revoked := d.revoked ++ [e]
        rx := d.rx.drop 48 }

/-- The next thing the host does with what it has received, if there is enough of it (`vhci_rx_pdu`). -/
def Driver.next (d : Driver) : Option Driver :=
  match d.phase with
  | .importing => d.import
  | .attached =>
    if d.rx.length < 48 then none
    else if field d.rx 0 4 = 3 then d.submitted
    else if field d.rx 0 4 = 4 then some d.unlinked
    else some { d with phase := .broken }
  | _ => none

/-- ... for as long as there is enough. -/
def Driver.pump : Nat → Driver → Driver
  | 0, d => d
  | n + 1, d =>
    match d.next with
    | none => d
    | some d' => d'.pump n

/-- Bytes are received. -/
def Driver.hear (d : Driver) (bs : Bytes) : Driver :=
  ({ d with rx := d.rx ++ bs, heard := d.heard ++ bs } : Driver).pump (d.rx.length + bs.length + 1)

/-- A number is not in use: not for a request that has not been answered, and not as the target of one. -/
def Driver.Free (d : Driver) (seq : UInt32) : Prop :=
  (∀ e ∈ d.pending, e.1 ≠ seq) ∧ ∀ e ∈ d.unlinks, e.1 ≠ seq ∧ e.2 ≠ seq

/-- What the host does: transfers are asked for, and requests for them are sent; pending transfers are
cancelled; bytes are received. -/
inductive Driver.Moves : Driver → Driver → Prop
  | refl (d : Driver) : Moves d d
  | submit {d d' : Driver} (h : Moves d d') (seq : UInt32) (u : Urb) (hp : d'.phase = .attached) (hf : d'.Free seq)
      (hw : WellFormed true (u.cmd d'.devid seq)) :
      Moves d { d' with pending := d'.pending ++ [(seq, u)], issued := d'.issued ++ [(seq, u)],
                        said := d'.said ++ [u.cmd d'.devid seq] }
  | unlink {d d' : Driver} (h : Moves d d') (seq target : UInt32) (hp : d'.phase = .attached) (hf : d'.Free seq)
      (ht : ∃ u, (target, u) ∈ d'.pending) :
      Moves d { d' with unlinks := d'.unlinks ++ [(seq, target)], said := d'.said ++ [unlinkCmd d'.devid seq target] }
  | hear {d d' : Driver} (h : Moves d d') (bs : Bytes) : Moves d (d'.hear bs)

/-- What arrives at the server's host from client `c` in a step. -/
def arrivesAt {σ} (c : Nat) : Option (MachineLabel σ) → Bytes
  | some (.early c' bs) => if c' = c then bs else []
  | some (.inner (.arrive c' bs)) => if c' = c then bs else []
  | _ => []

/-- What has arrived there before time `n`. -/
def arrivedBy {σ} (label : Nat → Option (MachineLabel σ)) (c : Nat) : Nat → Bytes
  | 0 => []
  | n + 1 => arrivedBy label c n ++ arrivesAt c (label n)

/-- A host is client `c` of a process.  What arrives at the server's host is a beginning of what it has sent; what it
receives is a beginning of what has left the server for it; it moves in between as it likes. -/
structure Alongside {τ} {code : Code τ} {env : Env (HandlerId → τ)} {p : Profile} {s0 : Machine code}
    (e : MachineExec code env p s0) (c : Nat) (busid : Bytes) (devid : UInt32) (d : Nat → Driver) : Prop where
  start : d 0 = Driver.start busid devid
  busid : busid.length = 32
  moves : ∀ n, (d n).Moves (d (n + 1))
  hears : ∀ n, (d (n + 1)).heard <+: (e.state n).whole.got c
  speaks : ∀ n, arrivedBy e.label c n <+: (d n).said.flatMap wireCmd

/-- A reply that fits its request: no more data than asked for, and none for an OUT transfer. -/
def Fits : Cmd → Resp → Prop
  | .submit h _ len _ _ _ _ _ _, .retSubmit _ _ _ _ _ _ buf _ =>
    if h.direction.toNat = 1 then buf.length ≤ len.toNat ∧ buf.length < 2 ^ 31 else buf = []
  | _, _ => True

/-- A reply without data for an OUT transfer, and with less than 2 GiB. -/
def Modest : Resp → Prop
  | .retSubmit h _ _ _ _ _ buf _ => buf.length < 2 ^ 31 ∧ (h.direction.toNat = 1 ∨ buf = [])
  | _ => True

/-- What a transfer is given back with, for an answered submit. -/
def outcome : Cmd × Resp × Bytes → Option (Cmd × Nat × Bytes)
  | (cmd@(.submit ..), .retSubmit _ st _ _ _ _ buf _, _) => some (cmd, st.toNat, buf)
  | _ => none

/-- A request, its response, the bytes of the response. -/
abbrev Handled := Cmd × Resp × Bytes

/-- Something that must not happen has been received. -/
def Overrun (log : List Handled) (heard : Bytes) : Prop :=
  ∃ pre e post, log = pre ++ e :: post ∧ (∀ e ∈ pre, Fits e.1 e.2.1) ∧ ¬ Fits e.1 e.2.1 ∧
    (pre.flatMap (·.2.2)).length + 48 ≤ heard.length

/-- What the server has made of the requests of a client that it has read so far: one response each.  (The last one may
not have left completely.)  An import is granted with a device that has the bus id asked for. -/
def Log (p : Profile) (log : List Handled) : Prop :=
  ∀ e ∈ log, Answers e.1 e.2.1 ∧ e.2.1.toBytes p = .ok e.2.2 ∧
    ∀ st b dev, e.1 = .reqImport st b → e.2.1 = .repImport 0 (some dev) → dev.busId = cstr b

/-- What the server has made of the requests of client `c`, over time: it only grows; it answers what the host has sent, in
that order; what has left the server for the client is a beginning of the responses in it, and all of them if
the server is between commands and the connection is open.  The connection's own record of what it has served
is a beginning of it. -/
structure Exchanged {τ} {code : Code τ} {env : Env (HandlerId → τ)} {p : Profile} {s0 : Machine code}
    (e : MachineExec code env p s0) (c : Nat) (d : Nat → Driver) (log : Nat → List Handled) : Prop where
  ok : ∀ n, Log p (log n)
  grows : ∀ n, log n <+: log (n + 1)
  asked : ∀ n, (log n).map (·.1) <+: (d n).said
  got : ∀ n, (e.state n).whole.got c <+: (log n).flatMap (·.2.2)
  served : ∀ n x, (e.state n).whole.fine.cfg.conns c = some x → x.status = .running → ∃ l0, l0 <+: log n ∧
    x.served = l0.map (fun e => (e.1, e.2.1)) ∧ x.output = l0.flatMap (·.2.2)
  all : ∀ n x, (e.state n).whole.fine.cfg.conns c = some x → (e.state n).whole.fine.cfg.idle c → x.status = .running →
    (e.state n).whole.got c = (log n).flatMap (·.2.2) ∧ x.served = (log n).map (fun e => (e.1, e.2.1))

/-- The line between the host and the server works: what is sent arrives some time, and what has left the server is
received some time. -/
structure Delivers {τ} {code : Code τ} {env : Env (HandlerId → τ)} {p : Profile} {s0 : Machine code}
    (e : MachineExec code env p s0) (c : Nat) (d : Nat → Driver) : Prop where
  there : ∀ n, ∃ m, n ≤ m ∧ (d n).said.flatMap wireCmd <+: arrivedBy e.label c m
  back : ∀ n, ∃ m, n ≤ m ∧ (e.state n).whole.got c <+: (d m).heard

end Usbip.Spec
