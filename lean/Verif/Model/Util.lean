import Verif.Model.Basic
/-!
# src/util.rs
-/

namespace Usbip

/-- The loop of src/util.rs:3-7 `verify_descriptor`, at offset `offset`.  `desc[offset]` is always
in range (the loop condition), the loop makes no progress exactly when that byte is 0 and then
never ends; `assert_eq!` fails when the last block runs past the end. -/
def verifyFrom (desc : Bytes) (offset : Nat) : Outcome Unit :=
  if h : offset < desc.length then
    if desc[offset].toNat = 0 then .diverge
    else verifyFrom desc (offset + desc[offset].toNat)
  else if offset = desc.length then .ok () else .panic
termination_by desc.length - offset
decreasing_by omega

/-- src/util.rs:2-8 `verify_descriptor`. -/
def verifyDescriptor (desc : Bytes) : Outcome Unit := verifyFrom desc 0

end Usbip
