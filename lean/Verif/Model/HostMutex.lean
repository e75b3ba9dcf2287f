import Verif.Model.Host
import Verif.Model.Mutex
/-!
# The libusb handlers step by step

`Verif.Model.Host` has each libusb handler as one function, and `Verif.Model.Mutex` handler code as steps.  Here the
code of src/host.rs:17-84, 108-145 is steps: locking the handle, calling libusb, and taking the part of the buffer that
libusb says it has filled.  Any number of devices are shared, each with its own handle, beside handlers with any code.
-/

namespace Usbip
open Spec

/-- Where a libusb handler is (src/host.rs:17-84, 108-145): about to lock the handle; with the handle locked; back
from a read into a buffer of `n` bytes; at the end. -/
inductive HostLocal where
  | start (c : HCall)
  | locked (c : HCall)
  | read (n : Nat) (r : ReadRes)
  | done (r : HRes)

/-- The libusb call of an interface handler (src/host.rs:32-82): `read` goes on to slice the buffer (lines 44, 64, 65,
76, or 83 if the read failed), and after a write, or for an isochronous endpoint, line 83 returns nothing. -/
def ifaceUsb {τ} (lib : RusbLib τ) (ep : Endpoint) (n : Nat) (setup : SetupPacket) (req : Bytes) (s : τ) :
    HostLocal × τ :=
  if ep.attributes = EndpointAttributes.control.toU8 then
    match ep.direction with
    | .in =>
      let r := lib.readControl setup.requestType setup.request setup.value setup.index n s
      (.read n r.1, r.2)
    | .out =>
      (.done (.ok []), lib.writeControl setup.requestType setup.request setup.value setup.index req s)
  else if ep.attributes = EndpointAttributes.interrupt.toU8 then
    match ep.direction with
    | .in => (.read n (lib.readInterrupt ep.address n s).1, (lib.readInterrupt ep.address n s).2)
    | .out => (.done (.ok []), lib.writeInterrupt ep.address req s)
  else if ep.attributes = EndpointAttributes.bulk.toU8 then
    match ep.direction with
    | .in => (.read n (lib.readBulk ep.address n s).1, (lib.readBulk ep.address n s).2)
    | .out => (.done (.ok []), lib.writeBulk ep.address req s)
  else (.done (.ok []), s)

/-- The libusb call of the device handler (src/host.rs:119-143). -/
def devUsb {τ} (lib : RusbLib τ) (n : Nat) (setup : SetupPacket) (req : Bytes) (s : τ) : HostLocal × τ :=
  if setup.requestType &&& 0x80 = 0 then
    (.done (.ok []), lib.writeControl setup.requestType setup.request setup.value setup.index req s)
  else
    let r := lib.readControl setup.requestType setup.request setup.value setup.index n s
    (.read n r.1, r.2)

/-- The libusb call of a handler.  src/host.rs:32-82, 119-143. -/
def usbCall {τ} (lib : RusbLib τ) : HCall → τ → HostLocal × τ
  | .iface _ _ ep len setup req => ifaceUsb lib ep len.toNat setup req
  | .dev _ len setup req => devUsb lib len.toNat setup req

/-- One step of a libusb handler.  src/host.rs:31, 117: `unwrap` panics if the handle is poisoned.  Slicing past the
end of the buffer (lines 44, 64, 65, 76, 141) panics with the handle locked, which poisons it.
Simplification: the buffer (line 29, 115) is made by the same step that locks the handle. -/
def hostStep {τ} (lib : RusbLib τ) : HostLocal → Handle τ → HostLocal × Handle τ
  | .start c, s => if s.poisoned then (.done .panic, s) else (.locked c, s)
  | .locked c, s => ((usbCall lib c s.dev).1, { s with dev := (usbCall lib c s.dev).2 })
  | .read n r, s => (.done (sliceResult n r), { s with poisoned := decide (sliceResult n r = .panic) })
  | .done r, s => (.done r, s)

/-- Devices shared through libusb, beside handlers with code `code`.  `host h` is the handle, if any, that handler `h`
works on (src/host.rs:7, 98; src/lib.rs:198, 224-227, 275-277); `lib o` is what libusb does on handle `o`.  Every object
consists of one of the other handlers' and of a handle, of which one part is used.  An object is named after a
handler: a handle may be named after any of the handlers that use it. -/
def hostCode {σ τ} (host : HandlerId → Option HandlerId) (lib : HandlerId → RusbLib τ) (code : Code σ) :
    Code (σ × Handle τ) where
  Local := (HandlerId × HostLocal) ⊕ code.Local
  obj h := (host h).getD (code.obj h)
  start c := match host c.target with
    | some o => .inl (o, .start c)
    | none => .inr (code.start c)
  step l s := match l with
    | .inl (o, l) => (.inl (o, (hostStep (lib o) l s.2).1), (s.1, (hostStep (lib o) l s.2).2))
    | .inr l => (.inr (code.step l s.1).1, ((code.step l s.1).2, s.2))
  result l := match l with
    | .inl (_, .done r) => some r
    | .inl _ => none
    | .inr l => code.result l

/-- What a libusb handler does when it is not interrupted: the functions of `Verif.Model.Host` with the handle's
mutex (src/host.rs:17-84, 108-145). -/
def usbAnswer {τ} (lib : RusbLib τ) : HCall → τ → HRes × τ
  | .iface _ _ ep len setup req => rusbIface lib ep len setup req
  | .dev _ len setup req => rusbDev lib len setup req

/-- The same server with every handler call in one piece.  src/host.rs:17-84, 108-145, behind the mutexes of
src/host.rs:31, 117. -/
def hostAnswer {σ τ} (host : HandlerId → Option HandlerId) (lib : HandlerId → RusbLib τ) (env : Env (HandlerId → σ))
    (c : HCall) (u : HandlerId → σ × Handle τ) : HRes × (HandlerId → σ × Handle τ) :=
  match host c.target with
  | some o =>
    (((u o).2.locked (usbAnswer (lib o) c)).1,
      upd u o ((u o).1, ((u o).2.locked (usbAnswer (lib o) c)).2))
  | none =>
    ((c.answer env (fun o => (u o).1)).1, fun o => ((c.answer env (fun o => (u o).1)).2 o, (u o).2))

/-- `hostAnswer` as an environment (src/host.rs:17-84, 108-145). -/
def hostEnv {σ τ} (host : HandlerId → Option HandlerId) (lib : HandlerId → RusbLib τ) (env : Env (HandlerId → σ)) :
    Env (HandlerId → σ × Handle τ) where
  iface h i e l s d := hostAnswer host lib env (.iface h i e l s d)
  dev h l s d := hostAnswer host lib env (.dev h l s d)

end Usbip
