import Verif.Spec.Driver
import Verif.Spec.Hosted
import Verif.Spec.Build
import Verif.Spec.Exports
/-!
# Specification: what a Linux host finds out about a device (C95)

The device is described with calls of the API in one process; a host in another has attached it, and looks at what it was given.
-/

namespace Usbip.Spec
open Usbip

/-- The device `dev` has the bus id the host asks for; of all devices the server is ever given it is the only one that has, and it is not
given twice. -/
structure Exported {τ : Type} {code : Code τ} {env : Env (HandlerId → τ)} {p : Profile} {s0 : Machine code}
    (e : MachineExec code env p s0) (devices : List Device) (dev : Device) (busid : Bytes) : Prop where
  named : dev.busId = cstr busid
  single : ∀ n, Single dev (devicesBy e.label devices n)

/-- A transfer given back is what device `dev` said to it, its handlers being in some state: the data of the endpoint's answer, or
a failure without data.  (A transfer with which a device crashes is not given back.) -/
def SaidTo {σ} (env : Env σ) (p : Profile) (dev : Device) (g : Returned) : Prop :=
  match endpointAt dev (UInt8.ofNat (if g.urb.input then g.urb.ep.toNat % 128 + 128 else g.urb.ep.toNat % 256)) with
  | none => g.status = 1 ∧ g.data = []
  | some (ep, owner) => ∃ w : World σ,
    match (said env p dev ep owner g.urb.len (setupAt g.urb.setup) g.urb.data w).1 with
    | .data b => g.status = 0 ∧ g.data = b
    | .failure => g.status = 1 ∧ g.data = []
    | .crash => False

/-- A transfer that reads `wLength` bytes of a descriptor: GET_DESCRIPTOR on endpoint zero (USB 2.0, 9.4.3). -/
def Urb.AsksFor (u : Urb) (type index : UInt8) (lang wLength : UInt16) : Prop :=
  u.input = true ∧ u.ep = 0 ∧ u.setup = [0x80, 6, index, type, UInt8.ofNat (lang.toNat % 256), UInt8.ofNat (lang.toNat / 256),
    UInt8.ofNat (wLength.toNat % 256), UInt8.ofNat (wLength.toNat / 256)]

/-- All that the host was given for string number `i`, in any language, is the text `s`. -/
def Driver.Text (x : Driver) (i : Nat) (s : Str) : Prop :=
  ∀ g ∈ x.done, ∀ lang wLength, g.urb.AsksFor 3 (UInt8.ofNat i) lang wLength → 254 ≤ wLength.toNat →
    g.status = 0 ∧ decodeStringDescriptor g.data = some (s.map Char.toNat)

/-- A host has found out what was said about a device: from the record in the reply to its import request, from the
device descriptor, and from the configuration descriptor.  Of that it reads the first nine bytes to know how long it is.  The
numbers of strings in them stand for the names, for all strings the host was given. -/
structure Driver.Learned (x : Driver) (pl : Plan) : Prop where
  record : x.phase = .attached → readDevInfo ((x.heard.drop 8).take 312) = pl.info
  device : ∀ g ∈ x.done, ∀ wLength, g.urb.AsksFor 1 0 0 wLength → 18 ≤ wLength.toNat →
    g.status = 0 ∧ ∃ v, readDevice g.data = some v ∧ ShowsDev x.Text v pl
  header : ∀ g ∈ x.done, ∀ wLength, g.urb.AsksFor 2 0 0 wLength → 9 ≤ wLength.toNat → g.status = 0 ∧ 9 ≤ g.data.length
  config : ∀ g0 ∈ x.done, ∀ wLength0, g0.urb.AsksFor 2 0 0 wLength0 → 9 ≤ wLength0.toNat →
    ∀ g ∈ x.done, ∀ wLength, g.urb.AsksFor 2 0 0 wLength → wordAt g0.data 2 ≤ wLength.toNat →
    g.status = 0 ∧ ∃ v, readConfig g.data = some v ∧ ShowsCfg x.Text v pl

end Usbip.Spec
