import Verif.Props.Examples
import Verif.Model.Util
import Verif.Lemmas.Descriptor
/-!
# The repository's own unit tests, run on the model

These are tests, not properties: they check that the model was read off the code correctly.  Each
is one `#[test]` of /repo, evaluated by the kernel, in the profile of `cargo test` (`Samples.dev`).
Left out: the tests that need real time or real sockets beyond what the model's events express
(`send_usb_traffic_while_adding_and_removing_devices`, which asserts nothing at the end).
-/

namespace Usbip.RepoTests
open Usbip Samples

set_option maxRecDepth 100000

/-- src/usbip_protocol.rs:511 `byte_serialize_op_req_devlist` -/
example : (Cmd.reqDevlist 0).toBytes dev = .ok [0x01, 0x11, 0x80, 0x05, 0, 0, 0, 0] := by decide +kernel

/-- src/usbip_protocol.rs:525 `byte_serialize_op_req_import` -/
example : (Cmd.reqImport 0 (List.replicate 32 0)).toBytes dev
    = .ok ([0x01, 0x11, 0x80, 0x03] ++ List.replicate 36 0) := by decide +kernel

/-- src/usbip_protocol.rs:550 `byte_serialize_usbip_cmd_submit` -/
example : (Cmd.submit ⟨1, 2, 3, 4, 5⟩ 0 0 6 0 7 (List.replicate 8 0xFF) [] []).toBytes dev = .ok
    [0, 0, 0, 1, 0, 0, 0, 2, 0, 0, 0, 3, 0, 0, 0, 4, 0, 0, 0, 5, 0, 0, 0, 0, 0, 0, 0, 0, 0, 0, 0, 6,
     0, 0, 0, 0, 0, 0, 0, 7, 0xFF, 0xFF, 0xFF, 0xFF, 0xFF, 0xFF, 0xFF, 0xFF] := by decide +kernel

/-- src/usbip_protocol.rs:591 `byte_serialize_usbip_cmd_unlink` -/
example : (Cmd.unlink ⟨0, 1, 2, 3, 4⟩ 5).toBytes dev = .ok
    ([0, 0, 0, 0, 0, 0, 0, 1, 0, 0, 0, 2, 0, 0, 0, 3, 0, 0, 0, 4, 0, 0, 0, 5] ++ List.replicate 24 0) := by
  decide +kernel

/-- src/usbip_protocol.rs:623 `byte_serialize_op_rep_devlist` -/
example : ∃ b, Device.default.toBytes dev = .ok b ∧ (opRepDevlist [Device.default]).toBytes dev
    = .ok ([0x01, 0x11, 0x00, 0x05, 0, 0, 0, 0, 0, 0, 0, 1] ++ b) := ⟨_, rfl, by decide +kernel⟩

/-- src/usbip_protocol.rs:642 `byte_serialize_op_rep_import` -/
example : (∃ b, Device.default.toBytes dev = .ok b ∧ (opRepImportSuccess Device.default).toBytes dev
    = .ok ([0x01, 0x11, 0x00, 0x03, 0, 0, 0, 0] ++ b)) ∧
    opRepImportFail.toBytes dev = .ok [0x01, 0x11, 0x00, 0x03, 0, 0, 0, 1] :=
  ⟨⟨_, rfl, by decide +kernel⟩, by decide +kernel⟩

/-- src/usbip_protocol.rs:670 `byte_serialize_usbip_ret_submit` -/
example : (Resp.retSubmit ⟨3, 2, 3, 1, 4⟩ 5 4 7 8 9 (List.replicate 4 0xFF) []).toBytes dev = .ok
    [0, 0, 0, 3, 0, 0, 0, 2, 0, 0, 0, 3, 0, 0, 0, 1, 0, 0, 0, 4, 0, 0, 0, 5, 0, 0, 0, 4, 0, 0, 0, 7,
     0, 0, 0, 8, 0, 0, 0, 9, 0, 0, 0, 0, 0, 0, 0, 0, 0xFF, 0xFF, 0xFF, 0xFF] := by decide +kernel

/-- src/usbip_protocol.rs:713 `byte_serialize_invalid_usbip_ret_submit` (`#[should_panic]`) -/
example : (Resp.retSubmit ⟨3, 2, 3, 0, 4⟩ 5 4 7 8 9 (List.replicate 4 0xFF)
    (List.replicate 16 0xFF)).toBytes dev = .panic := by decide +kernel

/-- src/usbip_protocol.rs:736 `byte_serialize_usbip_ret_unlink` -/
example : (usbipRetUnlinkSuccess ⟨4, 1, 2, 3, 4⟩).toBytes dev = .ok
      ([0, 0, 0, 4, 0, 0, 0, 1, 0, 0, 0, 2, 0, 0, 0, 3, 0, 0, 0, 4, 0, 0, 0, 0] ++ List.replicate 24 0) ∧
    (usbipRetUnlinkFail ⟨4, 1, 2, 3, 4⟩).toBytes dev = .ok
      ([0, 0, 0, 4, 0, 0, 0, 1, 0, 0, 0, 2, 0, 0, 0, 3, 0, 0, 0, 4, 0, 0, 0, 1] ++ List.replicate 24 0) := by
  decide +kernel

/-- `UsbIpCommand::read_from_socket(&mut MockSocket::new(cmd.to_bytes()))` -/
def reread (c : Cmd) : Outcome Bytes := do
  let b ← c.toBytes dev
  let (c', _) ← (readCommand dev : Rd Stream Cmd) ⟨b, .unexpectedEof⟩
  c'.toBytes dev

/-- src/usbip_protocol.rs:777 `read_op_req_devlist_from_socket` -/
example : reread (.reqDevlist 0) = (Cmd.reqDevlist 0).toBytes dev := by decide +kernel

/-- src/usbip_protocol.rs:792 `read_op_req_import_from_socket` -/
example : reread cmdImport = cmdImport.toBytes dev := by decide +kernel

def submitWithData : Cmd :=
  .submit ⟨1, 1, 2, 0, 4⟩ 5 4 7 1 9 [0, 1, 2, 3, 4, 5, 6, 7] [8, 9, 10, 11] (List.replicate 16 0xFF)

/-- src/usbip_protocol.rs:814 `read_usbip_cmd_submit_from_socket` -/
example : reread submitWithData = submitWithData.toBytes dev := by decide +kernel

def submitNoData : Cmd :=
  .submit ⟨1, 1, 2, 1, 4⟩ 5 64 7 1 9 [0, 1, 2, 3, 4, 5, 6, 0xFF] [] (List.replicate 16 0xFF)

/-- src/usbip_protocol.rs:845 `read_usbip_cmd_submit_from_socket_with_no_data` -/
example : reread submitNoData = submitNoData.toBytes dev := by decide +kernel

/-- src/usbip_protocol.rs:876 `read_usbip_cmd_unlink_from_socket` -/
example : reread (.unlink ⟨2, 1, 2, 0, 4⟩ 1) = (Cmd.unlink ⟨2, 1, 2, 0, 4⟩ 1).toBytes dev := by
  decide +kernel

/-- src/usbip_protocol.rs:900 `byte_serialization_fails_on_old_usbip_version` -/
example : ((readCommand dev : Rd Stream Cmd) ⟨[0x01, 0x10, 0x80, 0x05, 0, 0, 0, 0], .unexpectedEof⟩)
    = .err .other := by decide +kernel

/-- src/usbip_protocol.rs:917 `byte_serialization_fails_on_invalid_command` -/
example : ((readCommand dev : Rd Stream Cmd) ⟨[0x01, 0x11, 0x10, 0x05, 0, 0, 0, 0], .unexpectedEof⟩)
    = .err .other := by decide +kernel

/-- src/lib.rs:563 `new_server_with_single_device`: the device is the one of the serial example. -/
def single : Sys (Unit × Cdc) := serialSys

/-- `handler(&mut mock_socket, ...)`: what is in `mock_socket.output` after at most `n` rounds. -/
def outputOf (s : Sys (Unit × Cdc)) (req : Bytes) (n : Nat) : Bytes :=
  match ((s.run (hosting serialObj 0 noHandlers) dev
      (.connect 0 ⟨req, .unexpectedEof⟩ :: List.replicate n (.iterate 0 .full))).conns 0) with
  | some x => x.output
  | none => []

/-- src/lib.rs:598 `req_empty_devlist` -/
example : Outcome.ok (outputOf (Sys.init [] (freshWorld Cdc.new)) [0x01, 0x11, 0x80, 0x05, 0, 0, 0, 0] 2)
    = (opRepDevlist []).toBytes dev := by decide +kernel

/-- src/lib.rs:613 `req_sample_devlist` -/
example : (outputOf single [0x01, 0x11, 0x80, 0x05, 0, 0, 0, 0] 2).length = 0xC + 0x138 + 4 := by
  decide +kernel

def opReqImport : Bytes := [0x01, 0x11, 0x80, 0x03, 0, 0, 0, 0] ++ [48, 45, 48, 45, 48] ++ List.replicate 27 0

/-- src/lib.rs:629 `req_import` -/
example : (outputOf single opReqImport 2).length = 0x140 := by decide +kernel

/-- src/lib.rs:783 `req_import_get_device_desc` -/
example : (outputOf single (opReqImport ++ [0, 0, 0, 1, 0, 0, 0, 1, 0, 0, 0, 0, 0, 0, 0, 1, 0, 0, 0, 0,
      0, 0, 0, 0, 0, 0, 0, 0, 0, 0, 0, 0, 0, 0, 0, 0, 0, 0, 0, 0,
      0x80, 0x06, 0x00, 0x01, 0x00, 0x00, 0x40, 0x00]) 3).length = 0x140 + 0x30 + 0x12 := by
  decide +kernel

/-- The result field of the last import reply on a connection, read as `attach_device`
(src/lib.rs:586) does. -/
def result (s : Sys (Unit × Cdc)) (c : Nat) : Option Bytes :=
  (s.conns c).map (fun x => (x.output.drop 4).take 4)

/-- src/lib.rs:746 `only_single_connection_allowed_to_device` -/
example : let s := (single.run (hosting serialObj 0 noHandlers) dev
      [.connect 0 ⟨opReqImport, .other⟩, .connect 1 ⟨opReqImport, .other⟩, .iterate 0 .full, .iterate 1 .full])
    result s 0 = some [0, 0, 0, 0] ∧ result s 1 = some [0, 0, 0, 1] := by decide +kernel

/-- src/lib.rs:764 `device_gets_released_on_closed_socket` (with the release executed before the
second import, as the test assumes) -/
example : let s := (single.run (hosting serialObj 0 noHandlers) dev
      [.connect 0 ⟨opReqImport, .unexpectedEof⟩, .iterate 0 .full, .iterate 0 .full,
       .connect 1 ⟨opReqImport, .unexpectedEof⟩, .iterate 1 .full])
    result s 0 = some [0, 0, 0, 0] ∧ result s 1 = some [0, 0, 0, 0] := by decide +kernel

/-- Ten devices as in `(0..10).map(UsbDevice::new)`. -/
def ten : List Device := (List.range 10).flatMap (fun i => devicesOf (Device.new dev (UInt32.ofNat i)))

/-- src/lib.rs:642 `add_and_remove_10_devices`, in the order in which the tasks are spawned -/
example : ten.length = 10 ∧
    (((Sys.init [] (freshWorld Cdc.new)).run (hosting serialObj 0 noHandlers) dev
      (ten.map Event.addDevice ++ ten.map (fun d => Event.removeDevice d.busId))).shared.available).length
      = 0 := by decide +kernel

/-- src/device.rs:562 `test_set_string_descriptors` -/
example : (do
      let d ← Device.new dev 0
      let (o1, d) ← d.setConfigurationName dev "test".toList
      let (o2, d) ← d.setManufacturerName dev "test".toList
      let (o3, d) ← d.setProductName dev "test".toList
      let (o4, d) ← d.setSerialNumber dev "test".toList
      return ([o1, o2, o3, o4].all Option.isSome,
        (List.range 256).filterMap (fun i => (d.stringPool (UInt8.ofNat i)).map (fun s => (i, s)))))
    = Outcome.ok (true, [(1, "test".toList), (2, "test".toList), (3, "test".toList), (4, "test".toList)]) := by
  decide +kernel

/-- src/device.rs:582 `test_invalid_string_index` -/
example : (do
      let d ← Device.new dev 0
      (d.handleUrb noHandlers dev ⟨0x80, 0, 64, 0⟩ none 0 ⟨0x80, 6, 0x0305, 0, 0⟩ []
        ⟨(), fun _ => false, fun _ => false⟩).1)
    = .err .invalidInput := by decide +kernel

/-- src/cdc.rs:114 `desc_verify` -/
example : verifyDescriptor Cdc.classDescriptor = .ok () := by decide +kernel

/-- src/hid.rs:179 `desc_verify` -/
example : verifyDescriptor Keyboard.new.classDescriptor = .ok () := by decide +kernel

end Usbip.RepoTests
