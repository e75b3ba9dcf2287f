import Verif.Spec.Hosted
import Verif.Spec.Reference
/-!
# Specification: what the example programs are for
-/

namespace Usbip.Spec

open Usbip

/-- The key the keyboard example types once a second: 1, usage id 30, no modifier. -/
def keyOne : KeyReport := ⟨0, #v[30, 0, 0, 0, 0, 0]⟩

/-- Seconds the program has been running. -/
def seconds (es : List ProgEvent) : Nat := es.countP (fun | .tick => true | _ => false)

/-- The reports `n` presses of the key 1 give: each pressed, then released (in the 6 bytes the code
uses for that, see C38). -/
def typing : Nat → List Bytes
  | 0 => []
  | n + 1 => [0, 0, 30, 0, 0, 0, 0, 0] :: [0, 0, 0, 0, 0, 0] :: typing n

/-- The history of the keyboard program as one of a server with a keyboard. -/
def ProgEvent.keyboard : ProgEvent → HostedEvent Unit KeyReport
  | .connect c i => .server (.connect c i)
  | .iterate c w => .server (.iterate c w)
  | .cancel c => .server (.cancel c)
  | .tick => .app keyOne

/-- The history of the serial program as one of a server with a serial port. -/
def ProgEvent.serial : ProgEvent → HostedEvent Unit Bytes
  | .connect c i => .server (.connect c i)
  | .iterate c w => .server (.iterate c w)
  | .cancel c => .server (.cancel c)
  | .tick => .app [97]

/-- What clients were sent in reply to polls of the keyboard of the example program. -/
def polled (p : Profile) (es : List ProgEvent) : List Sent :=
  match keyboardProgram p with
  | some s => keyboardReplies noHandlers 0 p s (es.map ProgEvent.keyboard)
  | none => []

/-- What clients were sent in reply to reads of the serial port of the example program. -/
def received (p : Profile) (es : List ProgEvent) : List Sent :=
  match serialProgram p with
  | some s => serialReplies noHandlers 0 p s (es.map ProgEvent.serial)
  | none => []

/-- Everything clients were sent that came from the serial port. -/
def receivedAll (p : Profile) (es : List ProgEvent) : List Sent :=
  match serialProgram p with
  | some s => serialAll noHandlers 0 p s (es.map ProgEvent.serial)
  | none => []

end Usbip.Spec
