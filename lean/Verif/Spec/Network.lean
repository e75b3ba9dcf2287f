import Verif.Model.Network
import Verif.Spec.Server
/-!
# Specification: clients that react to what they are sent
-/

namespace Usbip.Spec

open Usbip

/-- What the client of connection `c` sends in a history, from a moment at which it has not ended
its side; `rest` is what it sends (and how it ends) after the history. -/
def sent {σ} (c : Nat) (rest : Stream) : List (NetEvent σ) → Stream
  | [] => rest
  | .arrive c' bs :: es =>
    if c' = c then ⟨bs ++ (sent c rest es).bytes, (sent c rest es).fin⟩ else sent c rest es
  | .hangup c' e :: es => if c' = c then ⟨[], e⟩ else sent c rest es
  | _ :: es => sent c rest es

/-- An event seen with hindsight, `es` being the events after it: the client has all it will ever send
on its connection from the start, and only iterations that do not wait are counted. -/
def counted {σ} (p : Profile) (rest : Nat → Stream) (s : Net σ) (es : List (NetEvent σ)) : NetEvent σ → List (Event σ)
  | .connect c => [.connect c (sent c (rest c) es)]
  | .arrive .. => []
  | .hangup .. => []
  | .iterate c w => if s.ready p c then [.iterate c w] else []
  | .cancel c => [.cancel c]
  | .addDevice d => [.addDevice d]
  | .removeDevice id => [.removeDevice id]
  | .user f crash => [.user f crash]

/-- A history seen with hindsight. -/
def hindsight {σ} (env : Env σ) (p : Profile) (rest : Nat → Stream) : Net σ → List (NetEvent σ) → List (Event σ)
  | _, [] => []
  | s, e :: es => counted p rest s es e ++ hindsight env p rest (s.step env p e) es

/-- The same connection, except that `more` has still to arrive. -/
def awaiting (x : Conn) (more : Stream) : Conn := { x with input := ⟨x.input.bytes ++ more.bytes, more.fin⟩ }

/-- A history in which every client sends everything at once. -/
def atOnce {σ} : Event σ → List (NetEvent σ)
  | .connect c i => [.connect c, .arrive c i.bytes, .hangup c i.fin]
  | .iterate c w => [.iterate c w]
  | .cancel c => [.cancel c]
  | .addDevice d => [.addDevice d]
  | .removeDevice id => [.removeDevice id]
  | .user f crash => [.user f crash]

/-- Bus ids stay unique along the history (as `Fresh`). -/
def FreshNet {σ} (env : Env σ) (p : Profile) : Net σ → List (NetEvent σ) → Prop
  | _, [] => True
  | s, e :: es =>
    (match e with
     | .addDevice d => ∀ x ∈ onServer s.sys.shared, x.busId ≠ d.busId
     | _ => True) ∧ FreshNet env p (s.step env p e) es

end Usbip.Spec
