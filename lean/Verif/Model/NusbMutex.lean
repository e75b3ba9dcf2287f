import Verif.Model.HostMutex
/-!
# The nusb handlers step by step

As `Verif.Model.HostMutex`, for the handlers of src/host.rs:152-306 on targets other than Windows: locking the handle,
making the control request and calling nusb, and taking the part of the buffer that nusb says it has filled.  Any
number of devices are shared, beside handlers with any code.
-/

namespace Usbip
open Spec

/-- What an interface handler does with its handle locked (src/host.rs:188-224): `read` goes on to slice the buffer
(line 211, or 224 if the read failed). -/
def ifaceNusb {τ} (lib : NusbLib τ) (ep : Endpoint) (n : Nat) (setup : SetupPacket) (req : Bytes) (s : τ) :
    HostLocal × τ :=
  match nusbControl setup with
  | none => (.done .panic, s)
  | some control =>
    if ep.attributes = EndpointAttributes.control.toU8 then
      match ep.direction with
      | .in => (.read n (lib.controlIn control n s).1, (lib.controlIn control n s).2)
      | .out => (.done (.ok []), lib.controlOut control req s)
    else if ep.attributes = EndpointAttributes.interrupt.toU8 then (.done .panic, s)
    else if ep.attributes = EndpointAttributes.bulk.toU8 then (.done .panic, s)
    else (.done (.ok []), s)

/-- What the device handler does with its handle locked (src/host.rs:267-301). -/
def devNusb {τ} (lib : NusbLib τ) (n : Nat) (setup : SetupPacket) (req : Bytes) (s : τ) : HostLocal × τ :=
  match nusbControl setup with
  | none => (.done .panic, s)
  | some control =>
    if setup.requestType &&& 0x80 = 0 then (.done (.ok []), lib.controlOut control req s)
    else (.read n (lib.controlIn control n s).1, (lib.controlIn control n s).2)

/-- The same, of a handler (src/host.rs:188-224, 267-301). -/
def nusbCall {τ} (lib : HandlerId → NusbLib τ) : HCall → τ → HostLocal × τ
  | .iface h _ ep len setup req => ifaceNusb (lib (.iface h)) ep len.toNat setup req
  | .dev h len setup req => devNusb (lib (.dev h)) len.toNat setup req

/-- One step of a nusb handler (src/host.rs:173-225, 257-302).  Simplifications: the buffer (lines 185, 264) is made by
the step that locks the handle (lines 187, 266).  That the handle may be poisoned is left out: each handle is used by
one handler only (src/lib.rs:96-99, 149-151), so it is poisoned together with the handler's own mutex. -/
def nusbStep {τ} (lib : HandlerId → NusbLib τ) : HostLocal → τ → HostLocal × τ
  | .start c, s => (.locked c, s)
  | .locked c, s => nusbCall lib c s
  | .read n r, s => (.done (sliceResult n r), s)
  | .done r, s => (.done r, s)

/-- Devices shared through nusb, beside handlers with code `code`.  `via h` is the device, if any, that handler `h`
works on; `lib o h` is what nusb does for device `o` on the handle of handler `h` (src/lib.rs:75-99, 149-151).
Simplification: the handlers of a device exclude each other, although each has a handle of its own; in the server they
are called by the connection that has imported the device, one at a time. -/
def nusbCode {σ τ} (via : HandlerId → Option HandlerId) (lib : HandlerId → HandlerId → NusbLib τ) (code : Code σ) :
    Code (σ × τ) where
  Local := (HandlerId × HostLocal) ⊕ code.Local
  obj h := (via h).getD (code.obj h)
  start c := match via c.target with
    | some o => .inl (o, .start c)
    | none => .inr (code.start c)
  step l s := match l with
    | .inl (o, l) => (.inl (o, (nusbStep (lib o) l s.2).1), (s.1, (nusbStep (lib o) l s.2).2))
    | .inr l => (.inr (code.step l s.1).1, ((code.step l s.1).2, s.2))
  result l := match l with
    | .inl (_, .done r) => some r
    | .inl _ => none
    | .inr l => code.result l

/-- What a nusb handler does when it is not interrupted: the functions of `Verif.Model.Host`
(src/host.rs:173-225, 257-302). -/
def nusbAnswer {τ} (lib : HandlerId → NusbLib τ) : HCall → τ → HRes × τ
  | .iface h _ ep len setup req => nusbIface (lib (.iface h)) ep len setup req
  | .dev h len setup req => nusbDev (lib (.dev h)) len setup req

/-- The same server with every handler call in one piece (src/host.rs:173-225, 257-302). -/
def viaAnswer {σ τ} (via : HandlerId → Option HandlerId) (lib : HandlerId → HandlerId → NusbLib τ)
    (env : Env (HandlerId → σ)) (c : HCall) (u : HandlerId → σ × τ) : HRes × (HandlerId → σ × τ) :=
  match via c.target with
  | some o => ((nusbAnswer (lib o) c (u o).2).1, upd u o ((u o).1, (nusbAnswer (lib o) c (u o).2).2))
  | none =>
    ((c.answer env (fun o => (u o).1)).1, fun o => ((c.answer env (fun o => (u o).1)).2 o, (u o).2))

/-- `viaAnswer` as an environment (src/host.rs:173-225, 257-302). -/
def nusbEnv {σ τ} (via : HandlerId → Option HandlerId) (lib : HandlerId → HandlerId → NusbLib τ)
    (env : Env (HandlerId → σ)) : Env (HandlerId → σ × τ) where
  iface h i e l s d := viaAnswer via lib env (.iface h i e l s d)
  dev h l s d := viaAnswer via lib env (.dev h l s d)

end Usbip
