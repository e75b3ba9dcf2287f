import Verif.Model.Main
import Verif.Spec.Programs
/-!
# Specification: the example programs as processes
-/

namespace Usbip.Spec

open Usbip

/-- Seconds the main loop has been running. -/
def ticks (es : List MainEvent) : Nat := es.countP (fun | .tick => true | _ => false)

/-- Fed `n` times. -/
def fed {σ} (feed : σ → σ) : Nat → σ → σ
  | 0, u => u
  | n + 1, u => fed feed n (feed u)

/-- What came of binding the address, if the task has got that far. -/
def firstBind : List MainEvent → Option Bool
  | [] => none
  | .bind ok :: _ => some ok
  | _ :: es => firstBind es

/-- What is sent, in the process, in reply to a request that reaches interface handler 0. -/
def replied {σ} (P : Program σ) (p : Profile) (s : Proc σ) : MainEvent → Option Sent
  | .iterate c w =>
    match job p s.net.sys c with
    | some j =>
      match j.urb 0 s.net.sys.shared.world with
      | some (ep, _) =>
        some ⟨ep, j.header.direction, w, newlySent s.net.sys (s.step P.env p (.iterate c w)).net.sys c⟩
      | none => none
    | none => none
  | _ => none

/-- All such replies in a history, over all connections, in the order of execution. -/
def repliesFrom {σ} (P : Program σ) (p : Profile) : Option (Proc σ) → List MainEvent → List Sent
  | some s, e :: es => (replied P p s e).toList ++ repliesFrom P p (P.step p (some s) e) es
  | _, _ => []

def replies {σ} (P : Program σ) (p : Profile) (es : List MainEvent) : List Sent :=
  repliesFrom P p (some (Proc.init P.devices P.world)) es

end Usbip.Spec
