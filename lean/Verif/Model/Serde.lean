import Verif.Model.Protocol
import Verif.Model.Hid
/-!
# The `serde` feature (Cargo.toml `[features]`): derived `Serialize` and `Deserialize`

What `#[derive(Serialize, Deserialize)]` generates, with the documents of a self-describing format such as JSON.
Assumed of serde: a struct is written as an object with one entry per field that is not skipped, in the order of
declaration; a variant with fields as an object with the name of the variant as its only entry; a variant without
fields as its name; `Vec`, `VecDeque` and arrays as sequences; `HashMap` as an object, in any order.  Reading accepts
the entries of a struct in any order, ignores unknown ones, and refuses missing or repeated ones; it also accepts a
struct written as the sequence of its fields.
-/

namespace Usbip

/-- A document of a self-describing format, as the types of src/usbip_protocol.rs:57-140, src/device.rs:4-71 and the
others that derive `Serialize` are written to.  `str` is a string whose characters matter, `utf8` one of which
the model keeps the UTF-8 bytes (`path` and `bus_id`, src/device.rs:43-44). -/
inductive Doc where
  | null
  | int (n : Nat)
  | str (s : String)
  | utf8 (s : Bytes)
  | arr (ds : List Doc)
  | obj (es : List (String × Doc))

/-! ## What the generated code has in common -/

/-- The value of a field of a struct (`#[derive(Deserialize)]`, as at src/setup.rs:6): exactly one entry. -/
def pick (name : String) (es : List (String × Doc)) : Option Doc :=
  match es.filter (fun e => e.1 = name) with
  | [e] => some e.2
  | _ => none

/-- The fields of a struct, from an object or a sequence (`#[derive(Deserialize)]`, as at src/setup.rs:6). -/
def fieldsOf (names : List String) : Doc → Option (List Doc)
  | .obj es => names.mapM (fun n => pick n es)
  | .arr ds => if ds.length = names.length then some ds else none
  | _ => none

/-- `u8` (as in src/setup.rs:9): a number that does not fit is refused. -/
def Doc.u8 : Doc → Option UInt8
  | .int n => if n < 256 then some (UInt8.ofNat n) else none
  | _ => none

/-- `u16` (as in src/setup.rs:13). -/
def Doc.u16 : Doc → Option UInt16
  | .int n => if n < 65536 then some (UInt16.ofNat n) else none
  | _ => none

/-- `u32` (as in src/usbip_protocol.rs:60). -/
def Doc.u32 : Doc → Option UInt32
  | .int n => if n < 4294967296 then some (UInt32.ofNat n) else none
  | _ => none

/-- `Vec`, `VecDeque` (as in src/hid.rs:19-20). -/
def Doc.list {α} (f : Doc → Option α) : Doc → Option (List α)
  | .arr ds => ds.mapM f
  | _ => none

/-- `Vec<u8>` (as in src/usbip_protocol.rs:133). -/
def Doc.bytes (d : Doc) : Option Bytes := d.list Doc.u8

/-- `[u8; n]` (as in src/usbip_protocol.rs:123, 132, src/hid.rs:33): another number of elements is refused. -/
def Doc.array (n : Nat) (d : Doc) : Option Bytes :=
  match d.bytes with
  | some bs => if bs.length = n then some bs else none
  | none => none

/-- A variant and its contents (`#[derive(Deserialize)]` on an enum, as at src/usbip_protocol.rs:116). -/
def Doc.variant : Doc → Option (String × Doc)
  | .str s => some (s, .null)
  | .obj [e] => some e
  | _ => none

/-- An enum without fields, by the names of its variants (as at src/consts.rs:5). -/
def Doc.unit {α} (table : List (String × α)) (d : Doc) : Option α :=
  match d.variant with
  | some (s, .null) => (table.find? (fun e => e.1 = s)).map (·.2)
  | _ => none

/-- `Vec<u8>` and `[u8; n]` (as in src/usbip_protocol.rs:123, 132-133). -/
def docBytes (bs : Bytes) : Doc := .arr (bs.map (fun b => .int b.toNat))

/-- The name of a variant (as at src/consts.rs:5). -/
def docUnit {α} [DecidableEq α] (table : List (String × α)) (a : α) : Doc :=
  match table.find? (fun e => e.2 = a) with
  | some e => .str e.1
  | none => .null

/-! ## Structs -/

/-- src/setup.rs:6-18. -/
def SetupPacket.toDoc (s : SetupPacket) : Doc :=
  .obj [("request_type", .int s.requestType.toNat), ("request", .int s.request.toNat), ("value", .int s.value.toNat),
    ("index", .int s.index.toNat), ("length", .int s.length.toNat)]

/-- src/setup.rs:6-18. -/
def SetupPacket.ofDoc (d : Doc) : Option SetupPacket :=
  match fieldsOf ["request_type", "request", "value", "index", "length"] d with
  | some [a, b, c, d, e] => do return ⟨← a.u8, ← b.u8, ← c.u16, ← d.u16, ← e.u16⟩
  | _ => none

/-- src/endpoint.rs:5-15. -/
def Endpoint.toDoc (e : Endpoint) : Doc :=
  .obj [("address", .int e.address.toNat), ("attributes", .int e.attributes.toNat),
    ("max_packet_size", .int e.maxPacketSize.toNat), ("interval", .int e.interval.toNat)]

/-- src/endpoint.rs:5-15. -/
def Endpoint.ofDoc (d : Doc) : Option Endpoint :=
  match fieldsOf ["address", "attributes", "max_packet_size", "interval"] d with
  | some [a, b, c, d] => do return ⟨← a.u8, ← b.u8, ← c.u16, ← d.u8⟩
  | _ => none

/-- src/device.rs:5-10. -/
def Version.toDoc (v : Version) : Doc :=
  .obj [("major", .int v.major.toNat), ("minor", .int v.minor.toNat), ("patch", .int v.patch.toNat)]

/-- src/device.rs:5-10. -/
def Version.ofDoc (d : Doc) : Option Version :=
  match fieldsOf ["major", "minor", "patch"] d with
  | some [a, b, c] => do return ⟨← a.u8, ← b.u8, ← c.u8⟩
  | _ => none

/-- src/usbip_protocol.rs:58-65. -/
def Header.toDoc (h : Header) : Doc :=
  .obj [("command", .int h.command.toNat), ("seqnum", .int h.seqnum.toNat), ("devid", .int h.devid.toNat),
    ("direction", .int h.direction.toNat), ("ep", .int h.ep.toNat)]

/-- src/usbip_protocol.rs:58-65. -/
def Header.ofDoc (d : Doc) : Option Header :=
  match fieldsOf ["command", "seqnum", "devid", "direction", "ep"] d with
  | some [a, b, c, d, e] => do return ⟨← a.u32, ← b.u32, ← c.u32, ← d.u32, ← e.u32⟩
  | _ => none

/-- src/hid.rs:28-34. -/
def KeyReport.toDoc (r : KeyReport) : Doc :=
  .obj [("modifier", .int r.modifier.toNat), ("keys", docBytes r.keys.toList)]

/-- src/hid.rs:28-34. -/
def KeyReport.ofDoc (d : Doc) : Option KeyReport :=
  match fieldsOf ["modifier", "keys"] d with
  | some [a, b] => do
    let m ← a.u8
    match ← b.array 6 with
    | [k0, k1, k2, k3, k4, k5] => return ⟨m, #v[k0, k1, k2, k3, k4, k5]⟩
    | _ => none
  | _ => none

/-- src/hid.rs:9-13 `UsbHidKeyboardHandlerState`; `true` for `KeyDown`. -/
def keyStates : List (String × Bool) := [("Idle", false), ("KeyDown", true)]

/-- src/hid.rs:17-22. -/
def Keyboard.toDoc (k : Keyboard) : Doc :=
  .obj [("report_descriptor", docBytes k.reportDescriptor), ("pending_key_events", .arr (k.pending.map KeyReport.toDoc)),
    ("state", docUnit keyStates k.keyDown)]

/-- src/hid.rs:17-22. -/
def Keyboard.ofDoc (d : Doc) : Option Keyboard :=
  match fieldsOf ["report_descriptor", "pending_key_events", "state"] d with
  | some [a, b, c] => do return ⟨← a.bytes, ← b.list KeyReport.ofDoc, ← c.unit keyStates⟩
  | _ => none

/-! ## Enums -/

/-- src/usbip_protocol.rs:116-140. -/
def Cmd.toDoc : Cmd → Doc
  | .reqDevlist st => .obj [("OpReqDevlist", .obj [("status", .int st.toNat)])]
  | .reqImport st busid => .obj [("OpReqImport", .obj [("status", .int st.toNat), ("busid", docBytes busid)])]
  | .submit h fl len sf np iv setup data iso =>
    .obj [("UsbIpCmdSubmit", .obj [("header", h.toDoc), ("transfer_flags", .int fl.toNat),
      ("transfer_buffer_length", .int len.toNat), ("start_frame", .int sf.toNat), ("number_of_packets", .int np.toNat),
      ("interval", .int iv.toNat), ("setup", docBytes setup), ("data", docBytes data),
      ("iso_packet_descriptor", docBytes iso)])]
  | .unlink h n => .obj [("UsbIpCmdUnlink", .obj [("header", h.toDoc), ("unlink_seqnum", .int n.toNat)])]

/-- src/usbip_protocol.rs:116-140. -/
def Cmd.ofDoc (d : Doc) : Option Cmd :=
  match d.variant with
  | some ("OpReqDevlist", c) =>
    match fieldsOf ["status"] c with
    | some [a] => do return .reqDevlist (← a.u32)
    | _ => none
  | some ("OpReqImport", c) =>
    match fieldsOf ["status", "busid"] c with
    | some [a, b] => do return .reqImport (← a.u32) (← b.array 32)
    | _ => none
  | some ("UsbIpCmdSubmit", c) =>
    match fieldsOf ["header", "transfer_flags", "transfer_buffer_length", "start_frame", "number_of_packets",
        "interval", "setup", "data", "iso_packet_descriptor"] c with
    | some [a, b, c, d, e, f, g, h, i] => do
      return .submit (← Header.ofDoc a) (← b.u32) (← c.u32) (← d.u32) (← e.u32) (← f.u32) (← g.array 8) (← h.bytes)
        (← i.bytes)
    | _ => none
  | some ("UsbIpCmdUnlink", c) =>
    match fieldsOf ["header", "unlink_seqnum"] c with
    | some [a, b] => do return .unlink (← Header.ofDoc a) (← b.u32)
    | _ => none
  | _ => none

/-- src/consts.rs:47-53. -/
def endpointAttributesNames : List (String × EndpointAttributes) :=
  [("Control", .control), ("Isochronous", .isochronous), ("Bulk", .bulk), ("Interrupt", .interrupt)]

/-- src/consts.rs:65-78. -/
def standardRequestNames : List (String × StandardRequest) :=
  [("GetStatus", .getStatus), ("ClearFeature", .clearFeature), ("SetFeature", .setFeature), ("SetAddress", .setAddress),
    ("GetDescriptor", .getDescriptor), ("SetDescriptor", .setDescriptor), ("GetConfiguration", .getConfiguration),
    ("SetConfiguration", .setConfiguration), ("GetInterface", .getInterface), ("SetInterface", .setInterface),
    ("SynchFrame", .synchFrame)]

/-- src/consts.rs:83-97. -/
def descriptorTypeNames : List (String × DescriptorType) :=
  [("Device", .device), ("Configuration", .configuration), ("String", .string), ("Interface", .interface),
    ("Endpoint", .endpoint), ("DeviceQualifier", .deviceQualifier), ("OtherSpeedConfiguration", .otherSpeedConfiguration),
    ("InterfacePower", .interfacePower), ("OTG", .otg), ("Debug", .debug), ("InterfaceAssociation", .interfaceAssociation),
    ("BOS", .bos)]

/-- src/consts.rs:5-14. -/
inductive UsbSpeed where
  | unknown | low | full | high | wireless | super | superPlus
  deriving DecidableEq

/-- src/consts.rs:5-14. -/
def usbSpeedNames : List (String × UsbSpeed) :=
  [("Unknown", .unknown), ("Low", .low), ("Full", .full), ("High", .high), ("Wireless", .wireless),
    ("Super", .super), ("SuperPlus", .superPlus)]

/-- src/consts.rs:19-43. -/
inductive ClassCode where
  | seeInterface | audio | cdc | hid | physical | image | printer | massStorage | hub | cdcData | smartCard
  | contentSecurity | video | personalHealthcare | audioVideo | billboard | typeCBridge | diagnostic
  | wirelessController | misc | applicationSpecific | vendorSpecific
  deriving DecidableEq

/-- src/consts.rs:19-43. -/
def classCodeNames : List (String × ClassCode) :=
  [("SeeInterface", .seeInterface), ("Audio", .audio), ("CDC", .cdc), ("HID", .hid), ("Physical", .physical),
    ("Image", .image), ("Printer", .printer), ("MassStorage", .massStorage), ("Hub", .hub),
    ("CDCData", .cdcData), ("SmartCard", .smartCard), ("ContentSecurity", .contentSecurity), ("Video", .video),
    ("PersonalHealthcare", .personalHealthcare), ("AudioVideo", .audioVideo), ("Billboard", .billboard),
    ("TypeCBridge", .typeCBridge), ("Diagnostic", .diagnostic), ("WirelessController", .wirelessController),
    ("Misc", .misc), ("ApplicationSpecific", .applicationSpecific), ("VendorSpecific", .vendorSpecific)]

/-- src/hid.rs:165-170. -/
inductive HidDescriptorType where
  | hid | report | physical
  deriving DecidableEq

/-- src/hid.rs:165-170. -/
def hidDescriptorTypeNames : List (String × HidDescriptorType) :=
  [("Hid", .hid), ("Report", .report), ("Physical", .physical)]

/-! ## Devices and replies, which can only be written -/

/-- src/interface.rs:5-16; the handler is skipped. -/
def Iface.toDoc (i : Iface) : Doc :=
  .obj [("interface_class", .int i.interfaceClass.toNat), ("interface_subclass", .int i.interfaceSubclass.toNat),
    ("interface_protocol", .int i.interfaceProtocol.toNat), ("endpoints", .arr (i.endpoints.map Endpoint.toDoc)),
    ("string_interface", .int i.stringInterface.toNat), ("class_specific_descriptor", docBytes i.classSpecificDescriptor)]

/-- `string_pool` (src/device.rs:66), of which `pool` lists the entries; the keys are written as decimal numbers. -/
def poolDoc (pool : List (UInt8 × Str)) : Doc :=
  .obj (pool.map (fun e => (toString e.1.toNat, .str (String.ofList e.2))))

/-- src/device.rs:41-71; the handler is skipped.  `pool` is the order in which the `HashMap` yields its entries. -/
def Device.toDoc (d : Device) (pool : List (UInt8 × Str)) : Doc :=
  .obj [("path", .utf8 d.path), ("bus_id", .utf8 d.busId), ("bus_num", .int d.busNum.toNat),
    ("dev_num", .int d.devNum.toNat), ("speed", .int d.speed.toNat), ("vendor_id", .int d.vendorId.toNat),
    ("product_id", .int d.productId.toNat), ("device_bcd", d.deviceBcd.toDoc), ("device_class", .int d.deviceClass.toNat),
    ("device_subclass", .int d.deviceSubclass.toNat), ("device_protocol", .int d.deviceProtocol.toNat),
    ("configuration_value", .int d.configurationValue.toNat), ("num_configurations", .int d.numConfigurations.toNat),
    ("interfaces", .arr (d.interfaces.map Iface.toDoc)), ("usb_version", d.usbVersion.toDoc), ("ep0_in", d.ep0In.toDoc),
    ("ep0_out", d.ep0Out.toDoc), ("string_pool", poolDoc pool), ("string_configuration", .int d.stringConfiguration.toNat),
    ("string_manufacturer", .int d.stringManufacturer.toNat), ("string_product", .int d.stringProduct.toNat),
    ("string_serial", .int d.stringSerial.toNat)]

/-- The entries of a `HashMap<u8, String>` (src/device.rs:66), each once, in some order. -/
def Enumerates (pool : List (UInt8 × Str)) (f : UInt8 → Option Str) : Prop :=
  (pool.map (·.1)).Nodup ∧ ∀ i s, (i, s) ∈ pool ↔ f i = some s

/-- `d` may be written as `doc` (src/device.rs:41-71). -/
def Device.Writes (d : Device) (doc : Doc) : Prop :=
  ∃ pool, Enumerates pool d.stringPool ∧ doc = d.toDoc pool

/-- The devices may be written as the documents, in order (src/usbip_protocol.rs:319). -/
def writesAll : List Device → List Doc → Prop
  | [], [] => True
  | d :: ds, x :: xs => d.Writes x ∧ writesAll ds xs
  | _, _ => False

/-- A reply may be written as a document (src/usbip_protocol.rs:314-339); an absent device is `null`. -/
def Resp.Writes : Resp → Doc → Prop
  | .repDevlist st n ds, doc => ∃ xs, writesAll ds xs ∧
    doc = .obj [("OpRepDevlist", .obj [("status", .int st.toNat), ("device_count", .int n.toNat), ("devices", .arr xs)])]
  | .repImport st none, doc => doc = .obj [("OpRepImport", .obj [("status", .int st.toNat), ("device", .null)])]
  | .repImport st (some d), doc => ∃ x, d.Writes x ∧
    doc = .obj [("OpRepImport", .obj [("status", .int st.toNat), ("device", x)])]
  | .retSubmit h st al sf np ec buf iso, doc =>
    doc = .obj [("UsbIpRetSubmit", .obj [("header", h.toDoc), ("status", .int st.toNat), ("actual_length", .int al.toNat),
      ("start_frame", .int sf.toNat), ("number_of_packets", .int np.toNat), ("error_count", .int ec.toNat),
      ("transfer_buffer", docBytes buf), ("iso_packet_descriptor", docBytes iso)])]
  | .retUnlink h st, doc => doc = .obj [("UsbIpRetUnlink", .obj [("header", h.toDoc), ("status", .int st.toNat)])]

end Usbip
