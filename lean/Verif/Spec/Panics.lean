import Verif.Spec.Hosted
import Verif.Spec.Descriptor
import Verif.Spec.Client
import Verif.Spec.Server
/-!
# Specification: what makes a connection's task crash
-/

namespace Usbip.Spec

open Usbip

/-- A list or import request with a status other than zero (or the beginning of one). -/
def BadStatus (bs : Bytes) : Prop :=
  ∃ v c st rest : Bytes, bs = v ++ c ++ st ++ rest ∧ v ∈ [[0, 0], [0x01, 0x11]] ∧
    c ∈ [[0x80, 0x05], [0x80, 0x03]] ∧ st.length = 4 ∧ st ≠ [0, 0, 0, 0]

/-- A submit or unlink request with a direction that is neither 0 nor 1 (or the beginning of one). -/
def BadDirection (bs : Bytes) : Prop :=
  ∃ v c ids dir rest : Bytes, bs = v ++ c ++ ids ++ dir ++ rest ∧ v ∈ [[0, 0], [0x01, 0x11]] ∧
    c ∈ [[0, 1], [0, 2]] ∧ ids.length = 8 ∧ dir.length = 4 ∧ dir ≠ [0, 0, 0, 0] ∧ dir ≠ [0, 0, 0, 1]

/-- A device whose record does not fit the fields of a reply. -/
def Unwritable (d : Device) : Prop := 256 < d.path.length ∨ 32 < d.busId.length

/-- The transfers a device crashes on (C20). -/
def UrbCrash {σ} (env : Env σ) (p : Profile) (d : Device) (ep : Endpoint) (owner : Option Iface)
    (len : UInt32) (setup : SetupPacket) (data : Bytes) (w : World σ) : Prop :=
  (∃ c, addressee d ep owner len setup data = some c ∧
    (c.poisoned w = true ∨ (c.answer env w.user).1 = .panic)) ∨
  3 < ep.attributes.toNat ∨
  (1 ≤ ep.attributes.toNat ∧ ep.attributes.toNat ≤ 3 ∧ owner = none) ∨
  (ep.attributes.toNat = 0 ∧ ¬ standard ep setup ∧
    ((setup.requestType.toNat % 16 = 1 ∧ d.interfaces.length ≤ setup.index.toNat % 256) ∨
     (setup.requestType.toNat % 16 = 0 ∧ d.deviceHandler = none) ∨
     2 ≤ setup.requestType.toNat % 16)) ∨
  (ep.attributes.toNat = 0 ∧ standard ep setup ∧ 128 ≤ ep.address.toNat ∧
    p.overflowChecks = true ∧ setup.value.toNat / 256 = 3 ∧ setup.value.toNat % 256 ≠ 0 ∧
    ∃ s, d.stringPool (UInt8.ofNat (setup.value.toNat % 256)) = some s ∧ 127 ≤ units s % 256)

/-- A submit that crashes: it has an endpoint to go to, and the device crashes on it, or (in builds with
debug assertions) answers a transfer that is not IN with data. -/
def Job.Crash {σ} (env : Env σ) (p : Profile) (w : World σ) (j : Job) : Prop :=
  ∃ ep owner, endpointAt j.device j.address = some (ep, owner) ∧
    (UrbCrash env p j.device ep owner j.len (setupAt j.setup) j.data w ∨
     (p.debugAssertions = true ∧ j.header.direction.toNat ≠ 1 ∧ ∃ buf,
       (said env p j.device ep owner j.len (setupAt j.setup) j.data w).1 = .data buf ∧
       buf.length % 4294967296 ≠ 0))

/-- A command that crashes the connection executing it, `cur` being what it has imported. -/
def Crashing {σ} (env : Env σ) (p : Profile) (s : Shared σ) (cur : Option Bytes) : Cmd → Prop
  | .reqDevlist _ => p.debugAssertions = true ∧ ∃ d ∈ s.available, Unwritable d
  | .reqImport _ busid =>
    p.debugAssertions = true ∧ ∃ d ∈ s.available, d.busId = cstr busid ∧ Unwritable d
  | .submit header _ len _ _ _ setup data _ =>
    cur = none ∨ ∃ id d, cur = some id ∧ amGet id s.used = some d ∧
      Job.Crash env p s.world ⟨d, header, len, setup, data⟩
  | .unlink .. => False

end Usbip.Spec
