import Verif.Spec.Contest
/-!
# Specification: a client that looks at the list of devices (C104)
-/

namespace Usbip.Spec
open Usbip

/-- Client `c` asks for the list of devices and sends nothing else, as `usbip list -r` does (tools/usb/usbip/src/usbip_list.c
`get_exported_devices`).  What arrives at the server's host is a beginning of the request; what the client has received by time `n`,
`heard n`, is a beginning of what has left the server for it. -/
structure Lister {τ : Type} {code : Code τ} {env : Env (HandlerId → τ)} {p : Profile} {s0 : Machine code}
    (e : MachineExec code env p s0) (c : Nat) (heard : Nat → Bytes) : Prop where
  start : heard 0 = []
  speaks : ∀ n, arrivedBy e.label c n <+: wireCmd (.reqDevlist 0)
  hears : ∀ n, heard (n + 1) <+: (e.state n).whole.got c

/-- The line between the client and the server works: the request arrives some time, and what has left the server is received
some time. -/
structure ListLine {τ : Type} {code : Code τ} {env : Env (HandlerId → τ)} {p : Profile} {s0 : Machine code}
    (e : MachineExec code env p s0) (c : Nat) (heard : Nat → Bytes) : Prop where
  there : ∃ m, wireCmd (.reqDevlist 0) <+: arrivedBy e.label c m
  back : ∀ n, ∃ m, n ≤ m ∧ (e.state n).whole.got c <+: heard m

/-- The devices the server is given can be shown in a list: they have no more interfaces than a byte can count, and there are not too
many of them; and in a build with debug assertions their names fit. -/
structure Listable {τ : Type} {code : Code τ} {env : Env (HandlerId → τ)} {p : Profile} {s0 : Machine code}
    (e : MachineExec code env p s0) (devices : List Device) : Prop where
  interfaces : ∀ n, ∀ d ∈ devicesBy e.label devices n, d.interfaces.length ≤ 255
  many : ∀ n, (devicesBy e.label devices n).length < 4294967296
  names : p.debugAssertions = true → ∀ n, ∀ d ∈ devicesBy e.label devices n, d.path.length ≤ 256 ∧ d.busId.length ≤ 32

/-- What a client has received by time `n` is a list of the devices `ds`, or the beginning of one: as soon as it can be read, it says what
these devices are, and nothing follows. -/
def ShownAs (bs : Bytes) (ds : List Device) : Prop :=
  ∀ r rest, decodeDevlist bs = some (r, rest) → r = .devlist 0 (ds.map fun d => (devInfo d, ifInfo d)) ∧ rest = []

/-- The list `ds` is true of device `dev` at time `m`.  All devices in it are ones the server has been given.  If `dev` is in it, then
it is in it once, under its bus id there is no other, and every host that was given it before has hung up. -/
structure TrueOf {τ : Type} {code : Code τ} {env : Env (HandlerId → τ)} {p : Profile} {s0 : Machine code}
    (e : MachineExec code env p s0) (devices : List Device) (dev : Device) (H : Nat → Prop) (log : Nat → Nat → List Handled) (m : Nat)
    (ds : List Device) : Prop where
  given : ∀ d ∈ ds, d ∈ devicesBy e.label devices m
  once : dev ∈ ds → ds.filter (fun d => d.busId = dev.busId) = [dev]
  free : dev ∈ ds → ∀ h, H h → Awarded dev (log h m) → (e.state m).whole.ended h ≠ none

end Usbip.Spec
