import Verif.Model.HostWindows
import Verif.Props.Host
/-! # The nusb device handler on Windows (C43) -/

namespace Usbip
open Spec

/-- C43, on Windows: the device handler panics exactly on reserved request type bits; any other request succeeds with no data; and the
device never notices any of them. -/
theorem C43_windows {σ} (setup : SetupPacket) (s : σ) :
    ((nusbDevWindows setup s).1 = .panic ↔ setup.requestType.toNat / 32 % 4 = 3 ∨ 3 < setup.requestType.toNat % 32) ∧
    ((nusbDevWindows setup s).1 ≠ .panic → (nusbDevWindows setup s).1 = .ok []) ∧
    (nusbDevWindows setup s).2 = s := by
  rw [← nusbControl_none]
  unfold nusbDevWindows
  cases nusbControl setup <;> simp

/-- So it panics on the same requests as on other systems, and is otherwise like a device that reads nothing. -/
theorem C43_windows_same {σ} (len : UInt32) (setup : SetupPacket) (data : Bytes) (s : σ) :
    nusbDevWindows setup s = nusbDev ⟨fun _ _ s => (none, s), fun _ _ s => s⟩ len setup data s := by
  unfold nusbDevWindows nusbDev
  cases nusbControl setup with
  | none => rfl
  | some c =>
    dsimp only
    split <;> rfl

/-- Reading a descriptor of the device, a reserved type, a reserved recipient. -/
example : (nusbDevWindows ⟨0x80, 6, 0x100, 0, 18⟩ (7 : Nat)) = (.ok [], 7) ∧ (nusbDevWindows ⟨0x60, 0, 0, 0, 0⟩ (7 : Nat)).1 = .panic ∧
    (nusbDevWindows ⟨0x84, 0, 0, 0, 0⟩ (7 : Nat)).1 = .panic := by decide

end Usbip
