import Verif.Spec.Machine
/-!
# Specification: the devices a server is given

A server is made with devices, and the application adds more of them while it runs.
-/

namespace Usbip.Spec
open Usbip

/-- The device that is added in a step, if one is. -/
def addedIn {σ : Type} : Option (MachineLabel σ) → List Device
  | some (.inner lb) => match tcpEvent lb with | some (.addDevice d) => [d] | _ => []
  | _ => []

/-- The devices the server has been given before time `n`: those it was made with, and those that have been added, removed or not. -/
def devicesBy {σ : Type} (label : Nat → Option (MachineLabel σ)) (devices : List Device) : Nat → List Device
  | 0 => devices
  | n + 1 => devicesBy label devices n ++ addedIn (label n)

/-- Of these devices none has the bus id of `dev`, or `dev` alone has it, once. -/
def Single (dev : Device) (l : List Device) : Prop := l.filter (fun d => d.busId = dev.busId) <+: [dev]

end Usbip.Spec
