import Verif.Spec.Client
import Verif.Spec.Hosted
/-!
# Specification: which device a client is talking to
-/

namespace Usbip.Spec

open Usbip

/-- The device a client has after a reply: an import reply names a device, or (refused) none. -/
def grant (cur : Option Device) : Cmd × Resp → Option Device
  | (.reqImport .., .repImport _ d) => d
  | _ => cur

/-- The device a client has after a conversation. -/
def holding (log : List (Cmd × Resp)) : Option Device := log.foldl grant none

/-- The reply to a submit is what device `d` says, its handlers being in some state. -/
def AnsweredBy {σ} (env : Env σ) (p : Profile) (d : Device) (h : Header) (len : UInt32)
    (setup data : Bytes) (r : Resp) : Prop :=
  let success (b : Bytes) : Resp := .retSubmit { h with command := 3 } 0 (UInt32.ofNat b.length) 0 0 0 b []
  let failure : Resp := .retSubmit { h with command := 3 } 1 0 0 0 0 [] []
  match endpointAt d (Job.address ⟨d, h, len, setup, data⟩) with
  | none => r = failure
  | some (ep, owner) => ∃ w : World σ,
    match (said env p d ep owner len (setupAt setup) data w).1 with
    | .data b => r = success b
    | .failure => r = failure
    | .crash => False

/-- An exchange on a connection that has device `cur`: an import names a device of the wanted bus
id; a submit is answered by the device the connection has. -/
def Exchange {σ} (env : Env σ) (p : Profile) (cur : Option Device) : Cmd × Resp → Prop
  | (.reqImport _ busid, .repImport _ (some d)) => d.busId = cstr busid
  | (.submit h _ len _ _ _ setup data _, r) => ∃ d, cur = some d ∧ AnsweredBy env p d h len setup data r
  | _ => True

/-- Every exchange of a conversation is with the device named last. -/
def Coherent {σ} (env : Env σ) (p : Profile) (log : List (Cmd × Resp)) : Prop :=
  ∀ pre e post, log = pre ++ e :: post → Exchange env p (holding pre) e

end Usbip.Spec
