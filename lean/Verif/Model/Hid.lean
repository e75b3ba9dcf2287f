import Verif.Model.Consts
/-!
# src/hid.rs
-/

namespace Usbip

/-- src/hid.rs:29-34 `UsbHidKeyboardReport`. -/
structure KeyReport where
  modifier : UInt8
  keys : Vector UInt8 6
  deriving DecidableEq, Repr

/-- src/hid.rs:10-22 `UsbHidKeyboardHandlerState` / `UsbHidKeyboardHandler`.
`pending` is the `VecDeque`, front first; `keyDown` is `state == KeyDown`. -/
structure Keyboard where
  reportDescriptor : Bytes
  pending : List KeyReport
  keyDown : Bool
  deriving DecidableEq, Repr

/-- src/hid.rs:37-50 `from_ascii`; the last arm is `unimplemented!`. -/
def KeyReport.fromAscii (ascii : UInt8) : Outcome KeyReport := do
  let key ←
    if 97 ≤ ascii ∧ ascii ≤ 122 then .ok (ascii - 97 + 4)
    else if 49 ≤ ascii ∧ ascii ≤ 57 then .ok (ascii - 49 + 30)
    else if ascii = 48 then .ok 39
    else if ascii = 13 ∨ ascii = 10 then .ok 40
    else .panic
  return { modifier := 0, keys := #v[key, 0, 0, 0, 0, 0] }

/-- src/hid.rs:54-87 `new_keyboard`. -/
def Keyboard.new : Keyboard where
  pending := []
  keyDown := false
  reportDescriptor := [
    0x05, 0x01,
    0x09, 0x06,
    0xA1, 0x01,
    0x05, 0x07,
    0x19, 0xE0,
    0x29, 0xE7,
    0x15, 0x00,
    0x25, 0x01,
    0x75, 0x01,
    0x95, 0x08,
    0x81, 0x02,
    0x95, 0x01,
    0x75, 0x08,
    0x81, 0x01,
    0x95, 0x06,
    0x75, 0x08,
    0x15, 0x00,
    0x25, 0x65,
    0x05, 0x07,
    0x19, 0x00,
    0x29, 0x65,
    0x81, 0x00,
    0xC0]

/-- src/hid.rs:166-170 `HidDescriptorType` with its derived `FromPrimitive::from_u16`; only
whether the result is `Report` matters (src/hid.rs:105-110). -/
def isHidReport (n : UInt16) : Bool := n == 0x22

/-- src/hid.rs:91-142 `UsbHidKeyboardHandler::handle_urb` (interface, buffer length and request
data are ignored by the code). -/
def Keyboard.handleUrb (k : Keyboard) (ep : Endpoint) (setup : SetupPacket) : HRes × Keyboard :=
  if ep.isEp0 then
    if setup.requestType = 0x81 ∧ setup.request = 0x06 then
      if isHidReport (setup.value >>> 8) then (.ok k.reportDescriptor, k)
      else (.panic, k)
    else if setup.requestType = 0x21 ∧ setup.request = 0x0A then (.ok [], k)
    else (.panic, k)
  else
    match ep.direction with
    | .in =>
      if k.keyDown then (.ok (List.replicate 6 0), { k with keyDown := false })
      else
        match k.pending with
        | report :: rest =>
          (.ok ([report.modifier, 0] ++ report.keys.toList),
            { k with pending := rest, keyDown := true })
        | [] => (.ok [], k)
    | .out => (.ok [], k)

/-- src/hid.rs:144-156 `get_class_specific_descriptor`. -/
def Keyboard.classDescriptor (k : Keyboard) : Bytes :=
  [0x09, 0x21, 0x11, 0x01, 0x00, 0x01, 0x22,
   asU8 k.reportDescriptor.length, asU8 (k.reportDescriptor.length >>> 8)]

end Usbip
