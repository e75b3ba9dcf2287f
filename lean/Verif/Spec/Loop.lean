import Verif.Spec.Attended
import Verif.Spec.Found
import Verif.Spec.Granted
import Verif.Spec.Hid
import Verif.Spec.Programs
/-!
# Specification: an example program and a Linux host (C100)

What the program does: one thing, again and again, to the handler object of its only device.  What the host sees: transfers, by
direction and endpoint number.
-/

namespace Usbip.Spec
open Usbip

/-- The main loop of an example program: whenever the application lets go of the handler object, it has done `one` to it once, or
nothing.  It adds and removes no devices. -/
structure MainLoop {τ α : Type} {code : Code τ} {env : Env (HandlerId → τ)} {p : Profile} {s0 : Machine code}
    (e : MachineExec code env p s0) (acts : Nat → List α) (one : α) : Prop where
  once : ∀ n, acts n = [] ∨ acts n = [one]
  adds : ∀ n lb d, e.label n = some (.inner lb) → tcpEvent lb ≠ some (.addDevice d)
  removes : ∀ n lb i, e.label n = some (.inner lb) → tcpEvent lb ≠ some (.removeDevice i)
  starts : ∀ n t i, e.label n ≠ some (.inner (.server (.start t (.removeDevice i))))

/-- How often the main loop has come round before time `n`. -/
def rounds {α : Type} (acts : Nat → List α) (n : Nat) : Nat := (actsBy acts n).length

/-- An IN transfer with endpoint number `k`. -/
def Urb.reads (u : Urb) (k : Nat) : Bool := u.input && u.ep.toNat == k

/-- The data of the IN transfers with endpoint number `k` that were given back. -/
def Driver.got (d : Driver) (k : Nat) : List Bytes := (d.done.filter (fun g => g.urb.reads k)).map (·.data)

/-- How many such transfers the host has asked for. -/
def Driver.asked (d : Driver) (k : Nat) : Nat := d.issued.countP (fun q => q.2.reads k)

/-- A transfer that reads the HID report descriptor of interface 0 (HID 1.11, 7.1.1). -/
def Urb.AsksReport (u : Urb) : Prop :=
  u.input = true ∧ u.ep = 0 ∧ ∃ index lo hi, u.setup = [0x81, 6, index, 0x22, 0, 0, lo, hi]

/-- The host uses a keyboard as it has to.  There are 16 endpoint numbers.  A control transfer has the length its SETUP packet says if it is IN; if it is OUT it does not
ask for data, and SET_CONFIGURATION has none (USB 2.0, 9.3, 9.4.7).  Reports are polled with room for the 8 bytes that the endpoint's
descriptor announces, and the report descriptor is read with room for the number of bytes that the HID descriptor announces (HID 1.11,
6.2.1; see C87). -/
structure KeyboardHost (d : Driver) : Prop where
  number : ∀ q ∈ d.issued, q.2.ep.toNat < 16
  input : ∀ q ∈ d.issued, q.2.input = true → q.2.ep.toNat = 0 → q.2.len.toNat = (setupAt q.2.setup).length.toNat
  output : ∀ q ∈ d.issued, q.2.input = false → q.2.ep.toNat = 0 → (setupAt q.2.setup).requestType.toNat < 128 ∧
    ((setupAt q.2.setup).requestType.toNat = 0 → (setupAt q.2.setup).request.toNat = 9 → (setupAt q.2.setup).length.toNat = 0)
  poll : ∀ q ∈ d.issued, q.2.reads 1 = true → 8 ≤ q.2.len.toNat
  report : ∀ q ∈ d.issued, q.2.input = true → q.2.ep.toNat = 0 → (setupAt q.2.setup).requestType.toNat = 0x81 →
    (setupAt q.2.setup).request.toNat = 6 → 45 ≤ q.2.len.toNat

/-- The text a host reads from a keyboard that has the report descriptor `desc`, in the reports it has been given. -/
def Driver.Reads (d : Driver) (desc text : Bytes) : Prop :=
  ∃ fs, hidParse desc = some fs ∧ hostReads fs [] ((d.got 1).filter (fun b => !b.isEmpty)) = some text

/-- The host uses a serial port as it has to: there are 16 endpoint numbers; and it does not ask the interface for anything with a control
transfer (the handler would answer with what was written, see `C40_fails`). -/
structure SerialHost (d : Driver) : Prop where
  number : ∀ q ∈ d.issued, q.2.ep.toNat < 16
  control : ∀ q ∈ d.issued, q.2.input = true → q.2.ep.toNat = 0 → (setupAt q.2.setup).requestType.toNat % 16 ≠ 1

end Usbip.Spec
