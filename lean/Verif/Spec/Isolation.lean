import Verif.Model.Examples
import Verif.Spec.Dispatch
import Verif.Spec.Server
import Verif.Spec.Wire
/-!
# Specification: a client and its device on their own
-/

namespace Usbip.Spec

open Usbip

/-- The handler objects of a device. -/
def handlersOf (d : Device) : List HandlerId :=
  d.interfaces.map (fun i => .iface i.handler) ++ d.deviceHandler.toList.map .dev

/-- Two families of handlers on one server: those in `who` work on a state `τ` of their own, the
others on `σ`. -/
def beside {σ τ} (who : HandlerId → Bool) (others : Env σ) (mine : Env τ) : Env (σ × τ) where
  iface h i e l s d u :=
    if who (.iface h) then ((mine.iface h i e l s d u.2).1, (u.1, (mine.iface h i e l s d u.2).2))
    else ((others.iface h i e l s d u.1).1, ((others.iface h i e l s d u.1).2, u.2))
  dev h l s d u :=
    if who (.dev h) then ((mine.dev h l s d u.2).1, (u.1, (mine.dev h l s d u.2).2))
    else ((others.dev h l s d u.1).1, ((others.dev h l s d u.1).2, u.2))

/-- What the family `who` knows of the handlers: its own state, and which of its members have
panicked. -/
def ownWorld {σ τ} (who : HandlerId → Bool) (w : World (σ × τ)) : World τ where
  user := w.user.2
  ifPoisoned h := who (.iface h) && w.ifPoisoned h
  devPoisoned h := who (.dev h) && w.devPoisoned h

/-- Of everything that happens on a server, what concerns connection `c` and the application's use
of the family's state, and its panics with a handler of the family in its hands. -/
def concerning {σ τ α} (who : HandlerId → Bool) (c : Nat) (act : α → τ → τ) : HostedEvent σ α → Option (Event τ)
  | .app a => some (.user (act a))
  | .server (.iterate c' w) => if c' = c then some (.iterate c w) else none
  | .server (.cancel c') => if c' = c then some (.cancel c) else none
  | .server (.user _ (some h)) => if who h then some (.user id (some h)) else none
  | .server _ => none

/-- A server that has only connection `c`, with only the one device in its hands. -/
def alone {τ} (c : Nat) (x : Conn) (id : Bytes) (d : Device) (w : World τ) : Sys τ where
  shared := { available := [], used := [(id, d)], world := w }
  conns k := if k = c then some x else none

/-- The client only uses its device from here on: all it sends that can be read is submits and
unlinks. -/
def OnlyUrbs (p : Profile) (input : Stream) : Prop :=
  ∀ n cmds rest, readMany p n input = .ok (cmds, rest) →
    ∀ cmd ∈ cmds, (∃ h a b c d e s t i, cmd = .submit h a b c d e s t i) ∨ ∃ h n, cmd = .unlink h n

end Usbip.Spec
