import Verif.Spec.Enumerate
import Verif.Spec.Hosted
/-!
# Specification: a host that knows CDC ACM

From the USB Class Definitions for Communications Devices 1.2 (functional descriptors: section 5.2.3; interface
classes: section 4) and its PSTN subclass 1.2 (abstract control model: section 3.2; its functional descriptors: 5.3; its
requests: 6).
-/

namespace Usbip.Spec

open Usbip

/-- A functional descriptor (CDC, table 11; type CS_INTERFACE): its subtype and what follows. -/
def functional (b : Bytes) : Option (Nat × Bytes) :=
  if byteAt b 1 = 0x24 ∧ 3 ≤ b.length then some (byteAt b 2, b.drop 3) else none

/-- The content of the first functional descriptor of a subtype. -/
def functionalOf (i : IfView) (subtype : Nat) : Option Bytes :=
  ((i.extra.filterMap functional).find? (fun f => f.1 == subtype)).map Prod.snd

def EpView.is (e : EpView) (transfer : Nat) (input : Bool) : Bool :=
  e.attributes % 4 == transfer && decide (128 ≤ e.address) == input

/-- A serial port as its driver knows it: the interface requests go to, what the port can do beyond the minimum, and its
endpoints for notifications and for data. -/
structure AcmPort where
  number : Nat
  capabilities : Nat
  notify : EpView
  input : EpView
  output : EpView
  deriving DecidableEq, Repr

/-- Interface `i` of a configuration as the specification wants it: class 2, subclass 2; a header functional descriptor
(subtype 0) first, one for call management (1), one for the abstract control model (2), and a union (6) of the interface
with a data interface (class 10), which has the two bulk endpoints; an interrupt endpoint for notifications. -/
def acmPort (v : CfgView) (i : IfView) : Option AcmPort := do
  if i.ifClass = 2 ∧ i.subclass = 2 ∧ ((i.extra.filterMap functional).head?.map Prod.fst) = some 0 then
    let _ ← functionalOf i 1
    let acm ← functionalOf i 2
    let un ← functionalOf i 6
    let data ← v.interfaces.find? (fun j => byteAt un 0 == i.number && j.number == byteAt un 1 && j.ifClass == 10)
    let notify ← i.endpoints.find? (fun e => e.is 3 true)
    let input ← data.endpoints.find? (fun e => e.is 2 true)
    let output ← data.endpoints.find? (fun e => e.is 2 false)
    return ⟨i.number, byteAt acm 0, notify, input, output⟩
  else none

/-- What drivers accept besides (Linux: "collapsed" interfaces): no union, and one interface with all three endpoints. -/
def acmCollapsed (i : IfView) : Option AcmPort := do
  if i.ifClass = 2 ∧ i.subclass = 2 ∧ functionalOf i 6 = none ∧ i.endpoints.length = 3 then
    let acm ← functionalOf i 2
    let notify ← i.endpoints.find? (fun e => e.is 3 true)
    let input ← i.endpoints.find? (fun e => e.is 2 true)
    let output ← i.endpoints.find? (fun e => e.is 2 false)
    return ⟨i.number, byteAt acm 0, notify, input, output⟩
  else none

/-- The class requests (request type and number) a host may make of a port (PSTN, sections 6 and 5.3.2): the first two always, the
others if the capabilities say so. -/
def acmRequests (capabilities : Nat) : List (Nat × Nat) :=
  [(0x21, 0x00), (0xA1, 0x01)] ++                                                    -- encapsulated command, response
  (if capabilities % 2 = 1 then [(0x21, 0x02), (0xA1, 0x03), (0x21, 0x04)] else []) ++       -- features
  (if capabilities / 2 % 2 = 1 then [(0x21, 0x20), (0xA1, 0x21), (0x21, 0x22)] else []) ++   -- line coding, line state
  (if capabilities / 4 % 2 = 1 then [(0x21, 0x23)] else [])                                  -- break

/-- The requests that reached the serial port `h`. -/
def serialRequests {σ} (env : Env σ) (h : Nat) (p : Profile) (s : Sys (σ × Cdc)) (es : List (HostedEvent σ Bytes)) :
    List (Endpoint × SetupPacket) :=
  (observations (hosting serialObj h env) Cdc.write h p s es).filterMap
    (fun o => match o.1 with | .urb ep st => some (ep, st) | .app _ => none)

/-- Handler `h` is used in a device for interfaces with the endpoints of a serial port only. -/
def PortOf (h : Nat) (d : Device) : Prop := ∀ f ∈ d.interfaces, f.handler = h → f.endpoints = Cdc.endpoints

/-- What a client asked for was a control request that takes data from the device. -/
def ControlIn (ep : Endpoint) : Prop := ep.attributes.toNat = 0 ∧ 128 ≤ ep.address.toNat

instance (ep : Endpoint) : Decidable (ControlIn ep) := by unfold ControlIn; infer_instance

end Usbip.Spec
