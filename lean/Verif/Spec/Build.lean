import Verif.Spec.Slots
import Verif.Spec.Enumerate
/-!
# Specification: a device built with the API

What a device made with `UsbDevice::new`, the builder and naming calls and assignments to its public
fields should present to a host.  Nothing here mentions string indices or pools.
-/

namespace Usbip.Spec

open Usbip

/-- The plain public fields of a device (src/device.rs:43-55, 61). -/
structure Facts where
  path : Bytes
  busId : Bytes
  busNum : UInt32
  devNum : UInt32
  speed : UInt32
  vendorId : UInt16
  productId : UInt16
  deviceBcd : Version
  deviceClass : UInt8
  deviceSubclass : UInt8
  deviceProtocol : UInt8
  configurationValue : UInt8
  numConfigurations : UInt8
  usbVersion : Version

/-- What an application does to a device it builds: calls of the API, and assignments to plain
public fields (the new values may depend on the old ones). -/
inductive BuildCall where
  | call (c : NameCall)
  | assign (f : Facts → Facts)

/-- What was said about one interface. -/
structure IfPlan where
  cls : UInt8
  sub : UInt8
  proto : UInt8
  name : Option Str
  endpoints : List Endpoint
  handler : Nat
  /-- the class specific descriptors its handler gave -/
  extra : Bytes

/-- What was said about a device. -/
structure Plan where
  facts : Facts
  slots : Slot → Option Str
  interfaces : List IfPlan
  handler : Option Nat

/-- A device nothing has been said about but its number: a high speed device (3 in the protocol) with one
configuration, whose number is 1. -/
def Plan.initial (index : UInt32) : Plan where
  facts := { path := ascii "/sys/bus/0/0/0", busId := ascii "0-0-0", busNum := 0, devNum := index, speed := 3
             vendorId := 0, productId := 0, deviceBcd := ⟨0, 0, 0⟩, deviceClass := 0, deviceSubclass := 0
             deviceProtocol := 0, configurationValue := 1, numConfigurations := 1, usbVersion := ⟨0, 0, 0⟩ }
  slots := Names.initial.slots
  interfaces := []
  handler := none

def Plan.step (pl : Plan) : BuildCall → Plan
  | .assign f => { pl with facts := f pl.facts }
  | .call (.set s name) => { pl with slots := fun t => if t = s then some name else pl.slots t }
  | .call (.unset s) => { pl with slots := fun t => if t = s then none else pl.slots t }
  | .call (.withInterface cls sub proto name endpoints handler extra) =>
    { pl with interfaces := pl.interfaces ++ [⟨cls, sub, proto, name, endpoints, handler, extra⟩] }
  | .call (.withDeviceHandler h) => { pl with handler := some h }

def Plan.run (pl : Plan) (cs : List BuildCall) : Plan := cs.foldl Plan.step pl

/-- The names of a plan. -/
def Plan.names (pl : Plan) : Names := ⟨pl.slots, pl.interfaces.map IfPlan.name⟩

/-- The calls among the steps. -/
def apiCalls (cs : List BuildCall) : List NameCall :=
  cs.filterMap (fun c => match c with | .call c => some c | .assign _ => none)

/-- A plan that fits the fields of the descriptors: counts in a byte, the whole configuration in 16 bits,
names in a string descriptor, class specific blocks that are blocks and do not pretend to be interface or
endpoint descriptors. -/
structure Plan.Describable (pl : Plan) : Prop where
  interfaces : pl.interfaces.length ≤ 255
  endpoints : ∀ f ∈ pl.interfaces, f.endpoints.length ≤ 255
  total : 9 + (pl.interfaces.map (fun f => 9 + f.extra.length + 7 * f.endpoints.length)).sum < 65536
  extra : ∀ f ∈ pl.interfaces, ∃ bls, walk f.extra = some bls ∧ ∀ b ∈ bls, byteAt b 1 ≠ 4 ∧ byteAt b 1 ≠ 5
  names : ∀ s, some s ∈ pl.names.all → units s ≤ 126

/-- A string number stands for a name; `T i s` says that string number `i` is read as `s`. -/
def Named (T : Nat → Str → Prop) (i : Nat) : Option Str → Prop
  | none => i = 0
  | some s => i ≠ 0 ∧ T i s

/-- The device descriptor a host read tells it the plan. -/
structure ShowsDev (T : Nat → Str → Prop) (v : DevView) (pl : Plan) : Prop where
  bcdUsb : v.bcdUsb = pl.facts.usbVersion.major.toNat * 256 + pl.facts.usbVersion.minor.toNat
  devClass : v.devClass = pl.facts.deviceClass.toNat
  subclass : v.subclass = pl.facts.deviceSubclass.toNat
  protocol : v.protocol = pl.facts.deviceProtocol.toNat
  maxPacketSize0 : v.maxPacketSize0 = 64
  idVendor : v.idVendor = pl.facts.vendorId.toNat
  idProduct : v.idProduct = pl.facts.productId.toNat
  bcdDevice : v.bcdDevice = pl.facts.deviceBcd.major.toNat * 256 + pl.facts.deviceBcd.minor.toNat
  manufacturer : Named T v.manufacturer (pl.slots .manufacturer)
  product : Named T v.product (pl.slots .product)
  serial : Named T v.serial (pl.slots .serial)
  numConfigurations : v.numConfigurations = pl.facts.numConfigurations.toNat

/-- What a host read about the interface with number `k` tells it what was said about it. -/
structure ShowsIf (T : Nat → Str → Prop) (k : Nat) (v : IfView) (f : IfPlan) : Prop where
  number : v.number = k
  alternate : v.alternate = 0
  ifClass : v.ifClass = f.cls.toNat
  subclass : v.subclass = f.sub.toNat
  protocol : v.protocol = f.proto.toNat
  name : Named T v.string f.name
  extra : walk f.extra = some v.extra
  endpoints : v.endpoints = f.endpoints.map
    (fun e => ⟨e.address.toNat, e.attributes.toNat, e.maxPacketSize.toNat, e.interval.toNat, []⟩)

/-- The configuration descriptor a host read tells it the plan: the interfaces in the order in which they
were given. -/
structure ShowsCfg (T : Nat → Str → Prop) (v : CfgView) (pl : Plan) : Prop where
  value : v.value = pl.facts.configurationValue.toNat
  name : Named T v.string (pl.slots .configuration)
  attributes : v.attributes = 0x80
  maxPower : v.maxPower = 50
  count : v.interfaces.length = pl.interfaces.length
  interfaces : ∀ (k : Nat) (i : IfView) (f : IfPlan), v.interfaces[k]? = some i → pl.interfaces[k]? = some f →
    ShowsIf T k i f

/-- The record a client should see in a device list and an import reply. -/
def Plan.info (pl : Plan) : DevInfo where
  path := cstr (pl.facts.path.take 256)
  busId := cstr (pl.facts.busId.take 32)
  busNum := pl.facts.busNum.toNat
  devNum := pl.facts.devNum.toNat
  speed := pl.facts.speed.toNat
  idVendor := pl.facts.vendorId.toNat
  idProduct := pl.facts.productId.toNat
  bcdDevice := pl.facts.deviceBcd.major.toNat * 256 + pl.facts.deviceBcd.minor.toNat
  deviceClass := pl.facts.deviceClass.toNat
  deviceSubClass := pl.facts.deviceSubclass.toNat
  deviceProtocol := pl.facts.deviceProtocol.toNat
  configurationValue := pl.facts.configurationValue.toNat
  numConfigurations := pl.facts.numConfigurations.toNat
  numInterfaces := pl.interfaces.length % 256

end Usbip.Spec

namespace Usbip
open Spec

/-- The plain public fields. -/
def Device.facts (d : Device) : Facts where
  path := d.path
  busId := d.busId
  busNum := d.busNum
  devNum := d.devNum
  speed := d.speed
  vendorId := d.vendorId
  productId := d.productId
  deviceBcd := d.deviceBcd
  deviceClass := d.deviceClass
  deviceSubclass := d.deviceSubclass
  deviceProtocol := d.deviceProtocol
  configurationValue := d.configurationValue
  numConfigurations := d.numConfigurations
  usbVersion := d.usbVersion

/-- Assignments to the plain public fields (src/device.rs:43-55, 61); nothing else changes. -/
def Device.assign (d : Device) (f : Facts) : Device :=
  { d with
    path := f.path
    busId := f.busId
    busNum := f.busNum
    devNum := f.devNum
    speed := f.speed
    vendorId := f.vendorId
    productId := f.productId
    deviceBcd := f.deviceBcd
    deviceClass := f.deviceClass
    deviceSubclass := f.deviceSubclass
    deviceProtocol := f.deviceProtocol
    configurationValue := f.configurationValue
    numConfigurations := f.numConfigurations
    usbVersion := f.usbVersion }

/-- One step of building a device: a call (src/device.rs:105-205) or an assignment. -/
def Device.buildStep (p : Profile) (d : Device) : BuildCall → Outcome Device
  | .call c => do
    let r ← d.call p c
    return r.2
  | .assign f => .ok (d.assign (f d.facts))

/-- `UsbDevice::new(index)` (src/device.rs:74-102) and then the steps. -/
def Device.build (p : Profile) (index : UInt32) (cs : List BuildCall) : Outcome Device := do
  let d ← Device.new p index
  cs.foldlM (Device.buildStep p) d

end Usbip
