import Verif.Model.Listen
/-!
# Specification: calls of `server`
-/

namespace Usbip.Spec
open Usbip

/-- What the server's tasks, the application and the handlers do, without the comings and goings of clients. -/
def work {σ} : NetEvent σ → Option (NetEvent σ)
  | .iterate c w => some (.iterate c w)
  | .addDevice d => some (.addDevice d)
  | .removeDevice id => some (.removeDevice id)
  | .user f crash => some (.user f crash)
  | _ => none

/-- The same of a history with calls of `server`. -/
def procWork {σ} : ProcEvent σ → Option (NetEvent σ)
  | .iterate c w => some (.iterate c w)
  | .addDevice d => some (.addDevice d)
  | .removeDevice id => some (.removeDevice id)
  | .user f crash => some (.user f crash)
  | _ => none

/-- Call `k` has been made and its listener is open: the first call with that number has bound its address,
and it has not been dropped since. -/
def Open {σ} (k : Nat) (es : List (ProcEvent σ)) : Prop :=
  ∃ pre post, es = pre ++ .serve k true :: post ∧ (∀ b, .serve k b ∉ pre) ∧
    .dropServe k ∉ post ∧ .shutdown ∉ post

/-- What a client says, up to the end of its side. -/
def says {σ} (c : Nat) : List (ProcEvent σ) → Bytes × Option ErrKind
  | [] => ([], none)
  | .arrive c' bs :: es => if c' = c then (bs ++ (says c es).1, (says c es).2) else says c es
  | .hangup c' e :: es => if c' = c then ([], some e) else says c es
  | _ :: es => says c es

/-- The clients that connect to call `k`, in order. -/
def dials {σ} (k : Nat) : List (ProcEvent σ) → List Nat
  | [] => []
  | .dial k' c :: es => if k' = k then c :: dials k es else dials k es
  | _ :: es => dials k es

/-- The clients that connect to any call. -/
def dialled {σ} : List (ProcEvent σ) → List Nat
  | [] => []
  | .dial _ c :: es => c :: dialled es
  | _ :: es => dialled es

end Usbip.Spec
