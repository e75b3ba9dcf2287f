import Verif.Lemmas.Serde
import Verif.Lemmas.Urb
import Verif.Spec.Samples
/-! # C103: what is written with serde is read back -/

namespace Usbip
open Spec

/-- C103: with the `serde` feature, a setup packet, endpoint, version, request header, key report and keyboard handler is read back as
what it was from the document it was written to, in whatever order the entries of its objects come, and so are the transfer
types, standard requests, descriptor types, speeds, class codes and states of a keyboard. -/
theorem C103_values :
    Survives SetupPacket.toDoc SetupPacket.ofDoc ∧ Survives Endpoint.toDoc Endpoint.ofDoc ∧
    Survives Version.toDoc Version.ofDoc ∧ Survives Header.toDoc Header.ofDoc ∧
    Survives KeyReport.toDoc KeyReport.ofDoc ∧ Survives Keyboard.toDoc Keyboard.ofDoc ∧
    Survives (docUnit endpointAttributesNames) (Doc.unit endpointAttributesNames) ∧
    Survives (docUnit standardRequestNames) (Doc.unit standardRequestNames) ∧
    Survives (docUnit descriptorTypeNames) (Doc.unit descriptorTypeNames) ∧
    Survives (docUnit keyStates) (Doc.unit keyStates) ∧
    Survives (docUnit usbSpeedNames) (Doc.unit usbSpeedNames) ∧
    Survives (docUnit classCodeNames) (Doc.unit classCodeNames) ∧
    Survives (docUnit hidDescriptorTypeNames) (Doc.unit hidDescriptorTypeNames) :=
  ⟨setup_back, endpoint_back, version_back, header_back, report_back, keyboard_back,
    fun a _ h => unit_back (by cases a <;> exact ⟨_, rfl, rfl⟩) h, fun a _ h => unit_back (by cases a <;> exact ⟨_, rfl, rfl⟩) h,
    fun a _ h => unit_back (by cases a <;> exact ⟨_, rfl, rfl⟩) h, fun a _ h => unit_back (by cases a <;> exact ⟨_, rfl, rfl⟩) h,
    fun a _ h => unit_back (by cases a <;> exact ⟨_, rfl, rfl⟩) h, fun a _ h => unit_back (by cases a <;> exact ⟨_, rfl, rfl⟩) h,
    fun a _ h => unit_back (by cases a <;> exact ⟨_, rfl, rfl⟩) h⟩

/-- C103: a command is read back as what it was; and whatever document a command is read from, its bus id has 32 bytes and its setup
packet 8 (so what is written again is read back again). -/
theorem C103_commands :
    (∀ x, ArraysFit x → ∀ doc, Reordered x.toDoc doc → Cmd.ofDoc doc = some x) ∧
    ∀ doc x, Cmd.ofDoc doc = some x → ArraysFit x :=
  ⟨cmd_back, fun _ _ h => cmd_arrays h⟩

/-- C103: every device can be written, and its document says all about it but its handlers: two devices have documents that agree but
for the order of entries exactly if they are the same but for their handlers; then they also have the same record in the
device list, and the same endpoint at every address, and answer every GET_DESCRIPTOR with the same bytes. -/
theorem C103_device :
    (∀ d : Device, ∃ doc, d.Writes doc) ∧
    ∀ (d e : Device) (a b : Doc), d.Writes a → e.Writes b →
      (Reordered a b ↔ anonymous d = anonymous e) ∧
      (Reordered a b → ∀ p : Profile,
        d.toBytesWithInterfaces p = e.toBytesWithInterfaces p ∧
        (∀ x, (d.findEp x).map (·.1) = (e.findEp x).map (·.1)) ∧
        ∀ setup o, setup.requestType.toNat = 0x80 → setup.request.toNat = 6 →
          (DescriptorReply p d setup o ↔ DescriptorReply p e setup o)) := by
  refine ⟨fun d => ?_, fun d e a b hd he => ⟨⟨device_inj hd he, device_same hd he⟩, fun h p => ?_⟩⟩
  · obtain ⟨pool, hp⟩ := enumerated d.stringPool
    exact ⟨_, pool, hp, rfl⟩
  · have h := device_inj hd he h
    refine ⟨?_, fun x => ?_, fun setup o h1 h2 => ?_⟩
    · rw [← anonymous_record p d, h, anonymous_record]
    · rw [← anonymous_find d, h, anonymous_find]
    · have h1 := UInt8.toNat_inj.mp (h1.trans (by decide : 0x80 = (0x80 : UInt8).toNat))
      have h2 := UInt8.toNat_inj.mp (h2.trans (by decide : 6 = (6 : UInt8).toNat))
      rw [descriptorReply_iff p _ _ h1 h2, descriptorReply_iff p _ _ h1 h2, ← anonymous_descriptor p d, h, anonymous_descriptor]

/-- C103: the document of a reply says all about it but the handlers of the devices in it: replies whose documents agree but for the
order of entries differ in nothing else, and go over the network as the same bytes. -/
theorem C103_replies (r q : Resp) (a b : Doc) (hr : r.Writes a) (hq : q.Writes b) (h : Reordered a b) (p : Profile) :
    anonymousReply r = anonymousReply q ∧ r.toBytes p = q.toBytes p := by
  have h := reply_inj hr hq h
  exact ⟨h, by rw [← anonymous_reply p r, h, anonymous_reply]⟩

/-! ## The hypotheses of C103 can be met -/

/-- A keyboard with two reports to come, read from an object in another order. -/
example : Keyboard.ofDoc (.obj [("state", .str "KeyDown"),
    ("pending_key_events", .arr [.obj [("keys", .arr [.int 4, .int 0, .int 0, .int 0, .int 0, .int 0]), ("modifier", .int 2)],
      .obj [("modifier", .int 0), ("keys", .arr [.int 5, .int 6, .int 0, .int 0, .int 0, .int 0])]]),
    ("report_descriptor", .arr [.int 5, .int 1])]) =
    some ⟨[5, 1], [⟨2, #v[4, 0, 0, 0, 0, 0]⟩, ⟨0, #v[5, 6, 0, 0, 0, 0]⟩], true⟩ := by
  apply C103_values.2.2.2.2.2.1
  have h : ReorderedEntries [("modifier", .int 2), ("keys", .arr [.int 4, .int 0, .int 0, .int 0, .int 0, .int 0])]
      [("modifier", .int 2), ("keys", .arr [.int 4, .int 0, .int 0, .int 0, .int 0, .int 0])] :=
    .cons _ (.same _) (.cons _ (.same _) .nil)
  refine .obj ?_ (List.reverse_perm _)
  exact .cons _ (.same _) (.cons _ (.arr (.cons (.obj h (List.Perm.swap _ _ _)) (.cons (.same _) .nil))) (.cons _ (.same _) .nil))

/-- A command with its fields the other way round. -/
example : Cmd.ofDoc (.obj [("OpReqImport", .obj [("busid", docBytes Samples.busA), ("status", .int 0)])]) =
    some (.reqImport 0 Samples.busA) :=
  C103_commands.1 (.reqImport 0 Samples.busA) (by simp [ArraysFit, Samples.busA]) _
    (.obj (.cons _ (.obj (.cons _ (.same _) (.cons _ (.same _) .nil)) (List.Perm.swap _ _ _)) .nil) (List.Perm.refl _))

/-- A bus id of 31 bytes is refused, and a command without one. -/
example : Cmd.ofDoc (.obj [("OpReqImport", .obj [("status", .int 0), ("busid", docBytes (List.replicate 31 0))])]) = none ∧
    Cmd.ofDoc (.obj [("OpReqImport", .obj [("status", .int 0)])]) = none := by
  constructor <;> rfl

/-- The pool of the sample device, in two orders. -/
theorem sample_pool : Enumerates [(5, ['h', 'i']), (1, ['é', '😀'])] Samples.devA.stringPool ∧
    Enumerates [(1, ['é', '😀']), (5, ['h', 'i'])] Samples.devA.stringPool := by
  have h : ∀ i s, (i, s) ∈ [((5 : UInt8), ['h', 'i']), (1, ['é', '😀'])] ↔ Samples.devA.stringPool i = some s := by
    intro i s
    simp only [List.mem_cons, List.not_mem_nil, or_false, Prod.mk.injEq, Samples.devA]
    by_cases h5 : i = 5
    · subst h5; simp [eq_comm]
    · by_cases h1 : i = 1
      · subst h1; simp [eq_comm]
      · simp [h5, h1]
  exact ⟨⟨by decide, h⟩, by decide, fun i s => ((List.Perm.swap _ _ _).mem_iff).trans (h i s)⟩

/-- The sample device, and the same one with other handlers, written with the pool in another order: they answer alike. -/
example (p : Profile) (o : Outcome Bytes) :
    let e : Device := { Samples.devA with deviceHandler := some 7, interfaces := Samples.devA.interfaces.map fun i => { i with handler := 3 } }
    DescriptorReply p Samples.devA (getDescriptorSetup 3 1 0x409 255) o ↔ DescriptorReply p e (getDescriptorSetup 3 1 0x409 255) o := by
  intro e
  have hd : Samples.devA.Writes (Samples.devA.toDoc [(5, ['h', 'i']), (1, ['é', '😀'])]) := ⟨_, sample_pool.1, rfl⟩
  have he : e.Writes (e.toDoc [(1, ['é', '😀']), (5, ['h', 'i'])]) := ⟨_, sample_pool.2, rfl⟩
  have h := C103_device.2 _ _ _ _ hd he
  exact ((h.2 (h.1.mpr rfl)) p).2.2 _ _ rfl rfl

/-- Two devices that differ in a string alone have documents that differ. -/
example (a b : Doc) (ha : Samples.devA.Writes a)
    (hb : ({ Samples.devA with stringPool := fun i => if i = 5 then some ['h', 'o'] else Samples.devA.stringPool i } : Device).Writes b) :
    ¬ Reordered a b := by
  intro h
  have h := (C103_device.2 _ _ _ _ ha hb).1.mp h
  have h := congrFun (congrArg Device.stringPool h) 5
  exact absurd h (by decide)

/-- An import reply. -/
example (p : Profile) (e : Device) (b : Doc) (he : e.Writes b)
    (h : Reordered (.obj [("OpRepImport", .obj [("status", .int 0), ("device", Samples.devA.toDoc [(5, ['h', 'i']), (1, ['é', '😀'])])])])
      (.obj [("OpRepImport", .obj [("status", .int 0), ("device", b)])])) :
    (Resp.repImport 0 (some Samples.devA)).toBytes p = (Resp.repImport 0 (some e)).toBytes p :=
  (C103_replies (.repImport 0 (some Samples.devA)) (.repImport 0 (some e)) _ _ ⟨_, ⟨_, sample_pool.1, rfl⟩, rfl⟩ ⟨_, he, rfl⟩ h p).2

end Usbip
