import Verif.Model.Device
/-!
# Specification: device names as independent slots

What the naming API of a device is supposed to do, without string indices or pools.
-/

namespace Usbip.Spec

open Usbip

/-- The four device-wide names. -/
inductive Slot where
  | configuration | manufacturer | product | serial
  deriving DecidableEq, Repr

/-- The calls of the naming API. -/
inductive NameCall where
  /-- `set_*_name` / `set_serial_number` -/
  | set (slot : Slot) (name : Str)
  /-- `unset_*_name` / `unset_serial_number` -/
  | unset (slot : Slot)
  /-- `with_interface`, with a handler whose mutex is not poisoned -/
  | withInterface (cls sub proto : UInt8) (name : Option Str) (endpoints : List Endpoint)
      (handler : Nat) (classSpecific : Bytes)
  /-- `with_device_handler` -/
  | withDeviceHandler (handler : Nat)

/-- The names a device has. -/
structure Names where
  slots : Slot → Option Str
  interfaces : List (Option Str)

/-- The names of a freshly constructed device. -/
def Names.initial : Names where
  slots
    | .configuration => some "Default Configuration".toList
    | .manufacturer => some "Manufacturer".toList
    | .product => some "Product".toList
    | .serial => some "Serial".toList
  interfaces := []

/-- What a call returns (the previous name for set/unset) and the names afterwards. -/
def Names.step (n : Names) : NameCall → Option Str × Names
  | .set s name => (n.slots s, { n with slots := fun t => if t = s then some name else n.slots t })
  | .unset s => (n.slots s, { n with slots := fun t => if t = s then none else n.slots t })
  | .withInterface _ _ _ name _ _ _ => (none, { n with interfaces := n.interfaces ++ [name] })
  | .withDeviceHandler _ => (none, n)

/-- The names in order: configuration, manufacturer, product, serial, then the interfaces. -/
def Names.all (n : Names) : List (Option Str) :=
  [n.slots .configuration, n.slots .manufacturer, n.slots .product, n.slots .serial] ++ n.interfaces

/-- How many names are set. -/
def Names.count (n : Names) : Nat := (n.all.filter Option.isSome).length

/-- A sequence of calls: the values returned and the final names. -/
def Names.run (n : Names) : List NameCall → List (Option Str) × Names
  | [] => ([], n)
  | c :: cs => ((n.step c).1 :: ((n.step c).2.run cs).1, ((n.step c).2.run cs).2)

/-- No call of the sequence takes the device beyond 254 names. -/
def Names.Fits (n : Names) : List NameCall → Prop
  | [] => True
  | c :: cs => (n.step c).2.count ≤ 254 ∧ (n.step c).2.Fits cs

end Usbip.Spec

namespace Usbip
open Spec

/-- The library's API as one function (src/device.rs:105-205). -/
def Device.call (p : Profile) (d : Device) : NameCall → Outcome (Option Str × Device)
  | .set .configuration n => d.setConfigurationName p n
  | .set .manufacturer n => d.setManufacturerName p n
  | .set .product n => d.setProductName p n
  | .set .serial n => d.setSerialNumber p n
  | .unset .configuration => .ok d.unsetConfigurationName
  | .unset .manufacturer => .ok d.unsetManufacturerName
  | .unset .product => .ok d.unsetProductName
  | .unset .serial => .ok d.unsetSerialNumber
  | .withInterface c s pr n es h cs => do
    let d' ← d.withInterface p c s pr n es h (some cs)
    return (none, d')
  | .withDeviceHandler h => .ok (none, d.withDeviceHandler h)

/-- A sequence of calls on a device. -/
def Device.calls (p : Profile) (d : Device) : List NameCall → Outcome (List (Option Str) × Device)
  | [] => .ok ([], d)
  | c :: cs => do
    let (r, d') ← d.call p c
    let (rs, d'') ← d'.calls p cs
    return (r :: rs, d'')

/-- The string indices a device announces in its descriptors, in the order of `Names.all`. -/
def Device.nameIndices (d : Device) : List UInt8 :=
  [d.stringConfiguration, d.stringManufacturer, d.stringProduct, d.stringSerial]
  ++ d.interfaces.map Iface.stringInterface

end Usbip
