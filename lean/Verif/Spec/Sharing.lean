import Verif.Model.Host
import Verif.Spec.Hosted
/-!
# Specification: which host devices are shared

In terms of what the host's USB library reports, without the model's construction of devices.
-/

namespace Usbip.Spec
open Usbip

/-- The verdicts of a filter that is asked about one device after the other: the `k`-th is given in
the state the filter has after the first `k` questions. -/
def verdict {φ} (filter : φ → RusbEntry → Bool × φ) (f : φ) (l : List RusbEntry) (k : Nat) : Bool :=
  match l[k]? with
  | some e => (filter ((l.take k).foldl (fun f e => (filter f e).2) f) e).1
  | none => false

/-- The devices a filter lets pass, in the order of enumeration. -/
def passed {φ} (filter : φ → RusbEntry → Bool × φ) (f : φ) (l : List RusbEntry) : List RusbEntry :=
  (List.range l.length).filterMap (fun k => if verdict filter f l k then l[k]? else none)

/-- A device libusb can open and describe. -/
def usable (e : RusbEntry) : Option HostDev :=
  e.openResult.bind (fun h => if h.desc.isSome && h.cfg.isSome then some h else none)

/-- A device with an interface without any setting, or with a string that it announces but libusb
cannot read. -/
def Defective (h : HostDev) : Prop :=
  ∃ desc cfg, h.desc = some desc ∧ h.cfg = some cfg ∧
    ([] ∈ cfg.interfaces ∨ ∃ i, (desc.manufacturerIndex = some i ∨ desc.productIndex = some i ∨
      desc.serialIndex = some i) ∧ h.stringAscii i = none)

/-- The same for nusb: an interface without any setting or that cannot be claimed, or an unknown
speed. -/
def DefectiveNusb (n : NusbDev) : Prop :=
  ∃ cfg, n.opened = true ∧ n.cfg = some cfg ∧
    ([] ∈ cfg.interfaces ∨ (∃ f rest, f :: rest ∈ cfg.interfaces ∧ n.claimable f.number = false) ∨ n.speed = none)

/-- A device nusb can open and describe. -/
def usableNusb (n : NusbDev) : Option NusbDev := if n.opened && n.cfg.isSome then some n else none

/-- The numbers in a text, separated by `sep`. -/
def numbers (sep : UInt8) : Nat → Bytes → List Nat
  | v, [] => [v]
  | v, b :: bs => if b = sep then v :: numbers sep 0 bs else numbers sep (10 * v + (b.toNat - 48)) bs

/-- `d` stands for the host device with these numbers: it says so, and its requests go to that
device's handlers. -/
structure StandsFor (d : Device) (bus address port : Nat) (vendor product : UInt16) (ifHandler : Nat → Nat)
    (devHandler : Nat) (cfg : HostCfg) : Prop where
  busId : numbers 45 0 d.busId = [bus, address, port]
  path : ∃ rest, d.path = ascii "/sys/bus/" ++ rest ∧ numbers 47 0 rest = [bus, address, port]
  busNum : d.busNum.toNat = bus
  devNum : d.devNum.toNat = port
  vendor : d.vendorId = vendor
  product : d.productId = product
  device : d.deviceHandler = some devHandler
  interfaces : d.interfaces.map Iface.handler = (List.range cfg.interfaces.length).map ifHandler
  classes : d.interfaces.map (fun f => some (f.interfaceClass, f.interfaceSubclass, f.interfaceProtocol)) =
    cfg.interfaces.map (fun alts => alts.head?.map (fun f => (f.cls, f.sub, f.proto)))

end Usbip.Spec
