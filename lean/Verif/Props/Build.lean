import Verif.Lemmas.Build
import Verif.Props.Enumerate
/-!
# Devices built with the API: C89
-/

namespace Usbip
open Spec Samples

/-- **C89.** Any sequence of API calls and assignments to plain public fields on a new device, never with
more than 254 names, succeeds; and if what was said fits the descriptors, what the device presents is what
was said: reading its device and configuration descriptors gives it, with string numbers that are read as
the names, and its record in device lists and import replies gives it.  Its handlers are the ones given. -/
theorem C89_built (p : Profile) (index : UInt32) (cs : List BuildCall)
    (hf : Names.initial.Fits (apiCalls cs)) :
    let pl := (Plan.initial index).run cs
    ∃ d, Device.build p index cs = .ok d ∧
      (d.deviceHandler = pl.handler ∧ d.interfaces.map Iface.handler = pl.interfaces.map IfPlan.handler) ∧
      (pl.facts.path.length ≤ 256 → pl.facts.busId.length ≤ 32 →
        ∃ bs, d.toBytes p = .ok bs ∧ bs.length = 312 ∧ readDevInfo bs = pl.info) ∧
      (pl.Describable →
        let T : Nat → Str → Prop := fun i s => ∀ lang, ∃ bs,
          DescriptorReply p d (getDescriptorSetup 3 (UInt8.ofNat i) lang 255) (.ok bs) ∧
          decodeStringDescriptor bs = some (s.map Char.toNat)
        (∃ bs v, DescriptorReply p d (getDescriptorSetup 1 0 0 18) (.ok bs) ∧ readDevice bs = some v ∧
          ShowsDev T v pl) ∧
        (∃ bs v, DescriptorReply p d (getDescriptorSetup 2 0 0 65535) (.ok bs) ∧ readConfig bs = some v ∧
          ShowsCfg T v pl)) := by
  intro pl
  obtain ⟨d, hd, hb⟩ := built_build p index cs hf
  refine ⟨d, hd, ⟨hb.handler, ?_⟩, ?_, ?_⟩
  · have := congrArg (List.map (fun g => g.2.2.2.2.1)) hb.interfaces
    rw [List.map_map, List.map_map] at this
    exact this
  · intro h1 h2
    have h := toBytes_ok p d (fun _ => ⟨by
      have : d.path = pl.facts.path := congrArg Facts.path hb.facts
      rw [this]; exact h1, by
      have : d.busId = pl.facts.busId := congrArg Facts.busId hb.facts
      rw [this]; exact h2⟩)
    exact ⟨_, h, (C10_record p d _ h).1, (C10_record p d _ h).2.trans (built_info hb)⟩
  · intro hde T
    have hde' := built_describable hb hde
    obtain ⟨⟨bs, h1, h2⟩, hdr, _, _, h3⟩ := C72_readable p d hde'
    obtain ⟨s1, s2⟩ := built_shows hb hde T (by
      intro i s h0 hs hm lang
      obtain ⟨bs, hg, _, hr⟩ := string_readable p d i lang s h0 hs (hde.names s hm)
      refine ⟨bs, ?_, hr⟩
      rw [show UInt8.ofNat i.toNat = i by simp]
      exact (descriptorReply_iff p d _ rfl rfl _).mpr hg)
    refine ⟨⟨bs, _, h1, h2, s1⟩, ?_⟩
    obtain ⟨bs, h4, h5⟩ := h3 65535 (by
      have h := fun (a b : Nat) (ha : a < 256) (hb : b < 256) => show a + 256 * b ≤ 65535 by omega
      exact h _ _ (UInt8.toNat_lt _) (UInt8.toNat_lt _))
    exact ⟨bs, _, h4, h5, s2⟩

/-- **C89, over the network.** A server is given a device built in this way, at the start or at any time,
and no other device with its bus id.  A client imports it and enumerates it: on a server with any history
and any other clients, what it decodes from the bytes it receives is what was said when the device was
built.  `qs` are the string numbers it asks for, which it finds in the descriptors. -/
theorem C89_enumerated {σ} (env : Env σ) (p : Profile) (index : UInt32) (cs : List BuildCall) (d : Device)
    (hf : Names.initial.Fits (apiCalls cs)) (hbuild : Device.build p index cs = .ok d)
    (hde : ((Plan.initial index).run cs).Describable)
    (devices : List Device) (w : World σ) (past es : List (Event σ)) (hd : (devices.map Device.busId).Nodup)
    (c : Nat) (busid : Bytes) (hb : busid.length = 32) (n1 n2 n3 : UInt32) (lang : UInt16)
    (qs : List (UInt32 × UInt8)) (hq : ∀ q ∈ qs, q.2 ≠ 0 ∧ q.2 ∈ d.nameIndices) (more : Bytes) (fin : ErrKind)
    (x : Conn) :
    let pl := (Plan.initial index).run cs
    let cmds := .reqImport 0 busid :: askDescriptor n1 1 0 0 18 :: askDescriptor n2 2 0 0 9 ::
      askDescriptor n3 2 0 0 65535 :: qs.map (fun q => askDescriptor q.1 3 q.2 lang 255)
    let es' := past ++ .connect c ⟨cmds.flatMap wireCmd ++ more, fin⟩ :: es
    Fresh env p (Sys.init devices w) es' →
    ((Sys.init devices w).run env p past).conns c = none →
    ((Sys.init devices w).run env p es').conns c = some x →
    cmds.length ≤ x.served.length →
    (∀ d', Given devices es' d' → d'.busId = cstr busid → d' = d) →
    ∃ rs rest vd vc, decodeAll cmds x.output = some (.import 0 (some pl.info) :: rs, rest) ∧
      (rs[0]?.bind dataOf).bind readDevice = some vd ∧ (rs[2]?.bind dataOf).bind readConfig = some vc ∧
      let T : Nat → Str → Prop := fun i s => ∀ (k : Nat) (q : UInt32 × UInt8), qs[k]? = some q → q.2.toNat = i →
        (rs[3 + k]?.bind dataOf).bind decodeStringDescriptor = some (s.map Char.toNat)
      ShowsDev T vd pl ∧ ShowsCfg T vc pl := by
  intro pl cmds es' hfr hnone hx hlen huniq
  obtain ⟨d0, hd0, hbt⟩ := built_build p index cs hf
  rw [hbuild, Outcome.ok.injEq] at hd0
  subst hd0
  obtain ⟨d1, hbus, hgiv, h⟩ := C72_enumeration env p devices w past es hd c busid hb n1 n2 n3 65535 lang qs more
    fin x hfr hnone hx hlen
  obtain rfl := huniq d1 hgiv hbus
  obtain ⟨hl, hv⟩ := hbt.names
  have hname : ∀ q ∈ qs, ∃ s, d1.stringPool q.2 = some s ∧ units s ≤ 126 := by
    intro q hqm
    obtain ⟨h0, hm⟩ := hq q hqm
    obtain ⟨k, hk⟩ := List.mem_iff_getElem?.mp hm
    have hk1 := (List.getElem?_eq_some_iff.mp hk).1
    have hk2 : k < pl.names.all.length := by
      have : d1.nameIndices.length = pl.names.all.length := by simp [Device.nameIndices, Names.all, hl, pl]
      omega
    have hz : (q.2, pl.names.all[k]) ∈ d1.nameIndices.zip pl.names.all := by
      refine List.mem_of_getElem? (i := k) ?_
      rw [List.getElem?_zip_eq_some]
      exact ⟨hk, List.getElem?_eq_getElem hk2⟩
    cases hn : pl.names.all[k] with
    | none => exact absurd (hv.unset _ hz hn) h0
    | some s => exact ⟨s, (hv.set _ hz s hn).2, hde.names s (hn ▸ List.getElem_mem hk2)⟩
  obtain ⟨rs, rest, hdec, hdev, ⟨hdr, hh, hhl, hcfg⟩, hstr⟩ := h ⟨by rw [hbt.ep0In], by rw [hbt.ep0In]⟩
    (built_describable hbt hde) (fun q hqm => ⟨(hq q hqm).1, hname q hqm⟩)
  refine ⟨rs, rest, devView d1, cfgView d1, by rw [hdec, built_info hbt], hdev, hcfg ?_, ?_⟩
  · have h := fun (a b : Nat) (ha : a < 256) (hb : b < 256) => show a + 256 * b ≤ 65535 by omega
    exact h _ _ (UInt8.toNat_lt _) (UInt8.toNat_lt _)
  · refine built_shows hbt hde _ ?_
    intro i s h0 hs _ k q hk hqi
    refine hstr k q s hk ?_
    rw [u8_ext hqi]
    exact hs

/-- The steps of an application: two interfaces, one with a name outside the basic plane, a vendor id, the
serial number removed, the product renamed twice. -/
def sampleSteps : List BuildCall :=
  [.call (.withInterface 3 1 1 (some ['k', '😀']) [⟨0x81, 3, 8, 10⟩] 0 [3, 0x21, 7]),
   .assign (fun f => { f with vendorId := 0x1234, busId := ascii "1-1" }),
   .call (.set .product ['a']), .call (.set .product ['b']), .call (.unset .serial),
   .call (.withInterface 255 0 0 none [⟨0x82, 2, 512, 0⟩, ⟨2, 2, 512, 0⟩] 1 []), .call (.withDeviceHandler 4)]

theorem sampleSteps_fits : Names.initial.Fits (apiCalls sampleSteps) := by
  simp only [sampleSteps, apiCalls, List.filterMap_cons, List.filterMap_nil, Names.Fits]
  decide +kernel

theorem sampleSteps_describable (i : UInt32) : ((Plan.initial i).run sampleSteps).Describable := by
  refine ⟨by show 2 ≤ 255; decide, ?_, by show 9 + ((9 + 3 + 7 * 1) + ((9 + 0 + 7 * 2) + 0)) < 65536; decide, ?_, ?_⟩
  · intro f hf
    simp only [sampleSteps, Plan.run, List.foldl, Plan.step, Plan.initial, List.nil_append, List.cons_append,
      List.mem_cons, List.not_mem_nil, or_false] at hf
    rcases hf with rfl | rfl <;> decide
  · intro f hf
    simp only [sampleSteps, Plan.run, List.foldl, Plan.step, Plan.initial, List.nil_append, List.cons_append,
      List.mem_cons, List.not_mem_nil, or_false] at hf
    rcases hf with rfl | rfl
    · exact ⟨[[3, 0x21, 7]], by decide +kernel, by decide +kernel⟩
    · exact ⟨[], by decide +kernel, by decide +kernel⟩
  · intro s hs
    have : s = "Default Configuration".toList ∨ s = "Manufacturer".toList ∨ s = ['b'] ∨ s = ['k', '😀'] := by
      simpa [sampleSteps, Plan.run, Plan.step, Plan.initial, Plan.names, Names.all, Names.initial] using hs
    rcases this with rfl | rfl | rfl | rfl <;> decide +kernel

/-- Not vacuous: the device of `sampleSteps` satisfies the hypotheses; the plan is what one expects; and a
client of a server with another client and another device gets through the enumeration. -/
example :
    let pl := (Plan.initial 7).run sampleSteps
    Names.initial.Fits (apiCalls sampleSteps) ∧ pl.Describable ∧
    pl.info.busId = ascii "1-1" ∧ pl.info.idVendor = 0x1234 ∧ pl.info.devNum = 7 ∧ pl.info.numInterfaces = 2 ∧
    pl.slots .product = some ['b'] ∧ pl.slots .serial = none ∧
    pl.interfaces.map (fun f => (f.cls, f.name, f.handler)) = [(3, some ['k', '😀'], 0), (255, none, 1)] ∧
    (match Device.build dev 7 sampleSteps with
     | .ok d =>
       let qs : List (UInt32 × UInt8) := d.nameIndices.filterMap (fun i => if i = 0 then none else some (9, i))
       let cmds : List Cmd := .reqImport 0 busA :: askDescriptor 1 1 0 0 18 :: askDescriptor 2 2 0 0 9 ::
         askDescriptor 3 2 0 0 65535 :: qs.map (fun q => askDescriptor q.1 3 q.2 0x409 255)
       let past : List (Event Nat) :=
         [.connect 1 ⟨wireCmd (.reqImport 0 busB), .unexpectedEof⟩, .addDevice d, .iterate 1 .full]
       let s := (Sys.init [devB] world).run Samples.env dev
         (past ++ .connect 0 ⟨cmds.flatMap wireCmd ++ [], .unexpectedEof⟩ :: List.replicate 8 (.iterate 0 .full))
       decide (d.busId = cstr busA ∧ qs.length = 4 ∧ (s.conns 0).map (fun x => x.served.length) = some 8)
     | _ => false) = true := by
  refine ⟨sampleSteps_fits, sampleSteps_describable 7, by decide +kernel, by decide +kernel, by decide +kernel,
    by decide +kernel, by decide +kernel, by decide +kernel, by decide +kernel, by decide +kernel⟩

end Usbip
