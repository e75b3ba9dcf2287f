import Verif.Spec.Hosted
/-!
# Specification: replies and the length a client asked for
-/

namespace Usbip.Spec

open Usbip

/-- The data a device answers a submit with: none if it has no such endpoint, or the transfer fails. -/
def Job.reply {σ} (env : Env σ) (p : Profile) (w : World σ) (j : Job) : Bytes :=
  match endpointAt j.device j.address with
  | some (ep, owner) =>
    match (said env p j.device ep owner j.len (setupAt j.setup) j.data w).1 with
    | .data b => b
    | _ => []
  | none => []

/-- Data for the request's buffer: what the handler asked gives must fit; of a descriptor, or the byte
SET_CONFIGURATION is answered with, the part that the setup packet asks for must.  (Descriptors of 65536
bytes and more are cut only if their length modulo 65536 exceeds what the setup packet asks for.) -/
def Job.Within {σ} (env : Env σ) (w : World σ) (j : Job) : Prop :=
  ∀ ep owner, endpointAt j.device j.address = some (ep, owner) →
    match addressee j.device ep owner j.len (setupAt j.setup) j.data with
    | some c => ∀ b, (c.answer env w.user).1 = .ok b → b.length ≤ j.len.toNat
    | none => ∀ f,
      (if 128 ≤ ep.address.toNat then
        descriptorOf j.device ((setupAt j.setup).value.toNat / 256) ((setupAt j.setup).value.toNat % 256)
       else some [j.device.configurationValue]) = some f →
      if (setupAt j.setup).length.toNat < f.length % 65536 then (setupAt j.setup).length.toNat ≤ j.len.toNat
      else f.length ≤ j.len.toNat

/-- Handlers that never give more than they are asked for. -/
def Limited {σ} (env : Env σ) : Prop :=
  (∀ h i e len s dt u b, (env.iface h i e len s dt u).1 = .ok b → b.length ≤ len.toNat) ∧
  (∀ h len s dt u b, (env.dev h len s dt u).1 = .ok b → b.length ≤ len.toNat)

end Usbip.Spec
