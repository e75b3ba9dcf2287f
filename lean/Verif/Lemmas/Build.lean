import Verif.Spec.Build
import Verif.Lemmas.Slots
import Verif.Lemmas.Host
import Verif.Lemmas.Enumerate
/-! Helper lemmas about devices built with the API. -/

namespace Usbip
open Spec

/-- What an interface was built from, without its name. -/
def Iface.given (i : Iface) : UInt8 × UInt8 × UInt8 × List Endpoint × Nat × Bytes :=
  (i.interfaceClass, i.interfaceSubclass, i.interfaceProtocol, i.endpoints, i.handler, i.classSpecificDescriptor)

/-- What was said about an interface, without its name. -/
def givenOf (f : IfPlan) : UInt8 × UInt8 × UInt8 × List Endpoint × Nat × Bytes :=
  (f.cls, f.sub, f.proto, f.endpoints, f.handler, f.extra)

/-- A device built as planned. -/
structure Built (d : Device) (pl : Plan) : Prop where
  facts : d.facts = pl.facts
  ep0In : d.ep0In = ⟨0x80, 0, 64, 0⟩
  ep0Out : d.ep0Out = ⟨0, 0, 64, 0⟩
  handler : d.deviceHandler = pl.handler
  interfaces : d.interfaces.map Iface.given = pl.interfaces.map givenOf
  names : Repr d pl.names

theorem built_new (p : Profile) (index : UInt32) :
    ∃ d, Device.new p index = .ok d ∧ Built d (Plan.initial index) := by
  obtain ⟨d, h, hr⟩ := repr_new p index
  refine ⟨d, h, ?_, ?_, ?_, ?_, ?_, hr⟩ <;>
  · simp only [Device.new, Outcome.bind_eq_ok] at h
    obtain ⟨⟨i1, d1⟩, h1, ⟨i2, d2⟩, h2, ⟨i3, d3⟩, h3, ⟨i4, d4⟩, h4, h⟩ := h
    simp only [Outcome.pure_eq, Outcome.ok.injEq] at h
    subst h
    obtain ⟨_, rfl⟩ := newString_inv h1
    obtain ⟨_, rfl⟩ := newString_inv h2
    obtain ⟨_, rfl⟩ := newString_inv h3
    obtain ⟨_, rfl⟩ := newString_inv h4
    rfl

theorem plan_names_step (pl : Plan) (c : NameCall) : (pl.step (.call c)).names = (pl.names.step c).2 := by
  cases c <;> simp [Plan.step, Plan.names, Names.step]

theorem built_step (p : Profile) (d : Device) (pl : Plan) (c : NameCall) (h : Built d pl)
    (hc : (pl.names.step c).2.count ≤ 254) :
    ∃ r d', d.call p c = .ok (r, d') ∧ Built d' (pl.step (.call c)) := by
  obtain ⟨d', hd, hr⟩ := repr_step p d pl.names c h.names hc
  refine ⟨_, d', hd, ?_⟩
  rw [← plan_names_step] at hr
  obtain ⟨h1, h2, h2', h3, h4, -⟩ := h
  cases c with
  | set s n =>
    cases s <;>
    · simp only [Device.call, Device.setConfigurationName, Device.setManufacturerName, Device.setProductName,
        Device.setSerialNumber, Outcome.bind_eq_ok, Outcome.pure_eq] at hd
      obtain ⟨⟨i, e⟩, hi, hd⟩ := hd
      obtain ⟨_, rfl⟩ := newString_inv hi
      simp only [Outcome.ok.injEq, Prod.mk.injEq] at hd
      obtain ⟨_, rfl⟩ := hd
      exact ⟨h1, h2, h2', h3, h4, hr⟩
  | unset s =>
    cases s <;>
    · simp only [Device.call, Device.unsetConfigurationName, Device.unsetManufacturerName,
        Device.unsetProductName, Device.unsetSerialNumber, Outcome.ok.injEq, Prod.mk.injEq] at hd
      obtain ⟨_, rfl⟩ := hd
      exact ⟨h1, h2, h2', h3, h4, hr⟩
  | withDeviceHandler k =>
    simp only [Device.call, Outcome.ok.injEq, Prod.mk.injEq] at hd
    obtain ⟨_, rfl⟩ := hd
    exact ⟨h1, h2, h2', rfl, h4, hr⟩
  | withInterface cls sub proto name es hd' cs =>
    simp only [Device.call, Device.withInterface, Outcome.bind_eq_ok, Outcome.pure_eq] at hd
    obtain ⟨e, ⟨⟨si, e1⟩, hsi, bs, hbs, he⟩, hd⟩ := hd
    simp only [Outcome.ok.injEq, Prod.mk.injEq] at hd hbs he
    obtain ⟨_, rfl⟩ := hd
    subst hbs he
    have he1 : e1.facts = d.facts ∧ e1.ep0In = d.ep0In ∧ e1.ep0Out = d.ep0Out ∧ e1.deviceHandler = d.deviceHandler ∧
        e1.interfaces = d.interfaces := by
      cases name with
      | none => simp only [Outcome.ok.injEq, Prod.mk.injEq] at hsi; obtain ⟨_, rfl⟩ := hsi; exact ⟨rfl, rfl, rfl, rfl, rfl⟩
      | some n => obtain ⟨_, rfl⟩ := newString_inv hsi; exact ⟨rfl, rfl, rfl, rfl, rfl⟩
    refine ⟨he1.1.trans h1, he1.2.1.trans h2, he1.2.2.1.trans h2', he1.2.2.2.1.trans h3, ?_, hr⟩
    simp only [he1.2.2.2.2, Plan.step]
    rw [List.map_append, List.map_append, h4]
    rfl

theorem built_run (p : Profile) (cs : List BuildCall) : ∀ (d : Device) (pl : Plan), Built d pl →
    pl.names.Fits (apiCalls cs) → ∃ d', cs.foldlM (Device.buildStep p) d = .ok d' ∧ Built d' (pl.run cs) := by
  induction cs with
  | nil => intro d pl h _; exact ⟨d, rfl, h⟩
  | cons c cs ih =>
    intro d pl h hf
    cases c with
    | assign f =>
      obtain ⟨h1, h2, h2', h3, h4, h5⟩ := h
      obtain ⟨d', hd, hb⟩ := ih (d.assign (f d.facts)) (pl.step (.assign f))
        ⟨by rw [h1]; rfl, h2, h2', h3, h4, h5⟩ hf
      exact ⟨d', by rw [List.foldlM_cons]; simp only [Device.buildStep, Outcome.bind_ok]; exact hd, hb⟩
    | call c =>
      obtain ⟨r, d1, hd1, hb1⟩ := built_step p d pl c h hf.1
      obtain ⟨d', hd, hb⟩ := ih d1 (pl.step (.call c)) hb1 (by rw [plan_names_step]; exact hf.2)
      exact ⟨d', by rw [List.foldlM_cons]; simp only [Device.buildStep, hd1, Outcome.bind_ok, Outcome.pure_eq]; exact hd, hb⟩

theorem built_build (p : Profile) (index : UInt32) (cs : List BuildCall)
    (hf : Names.initial.Fits (apiCalls cs)) :
    ∃ d, Device.build p index cs = .ok d ∧ Built d ((Plan.initial index).run cs) := by
  obtain ⟨d0, h0, hb0⟩ := built_new p index
  obtain ⟨d, h, hb⟩ := built_run p cs d0 _ hb0 hf
  exact ⟨d, by simp only [Device.build, h0, Outcome.bind_ok]; exact h, hb⟩

/-! ### What it presents -/

theorem built_get {l : List Iface} {m : List IfPlan} (h : l.map Iface.given = m.map givenOf) (k : Nat)
    (a : Iface) (ha : l[k]? = some a) : ∃ b, m[k]? = some b ∧ a.given = givenOf b := by
  have h1 := congrArg (·[k]?) h
  simp only [List.getElem?_map, ha, Option.map_some] at h1
  cases hb : m[k]? with
  | none => rw [hb] at h1; simp at h1
  | some b => rw [hb] at h1; simp only [Option.map_some, Option.some.injEq] at h1; exact ⟨b, rfl, h1⟩

theorem built_mem {l : List Iface} {m : List IfPlan} (h : l.map Iface.given = m.map givenOf)
    (a : Iface) (ha : a ∈ l) : ∃ b ∈ m, a.given = givenOf b := by
  have : a.given ∈ m.map givenOf := h ▸ List.mem_map_of_mem ha
  obtain ⟨b, hb, he⟩ := List.mem_map.mp this
  exact ⟨b, hb, he.symm⟩

theorem given_fields {a : Iface} {b : IfPlan} (h : a.given = givenOf b) :
    a.interfaceClass = b.cls ∧ a.interfaceSubclass = b.sub ∧ a.interfaceProtocol = b.proto ∧
    a.endpoints = b.endpoints ∧ a.handler = b.handler ∧ a.classSpecificDescriptor = b.extra := by
  simpa [Iface.given, givenOf] using h

theorem ifaceDescriptors_length (l : List Iface) : ∀ i, (ifaceDescriptors i l).length =
    (l.map (fun f => 9 + f.classSpecificDescriptor.length + 7 * f.endpoints.length)).sum := by
  induction l with
  | nil => intro i; rfl
  | cons f fs ih =>
    intro i
    simp only [ifaceDescriptors, List.length_append, ih, List.map_cons, List.sum_cons, Iface.descriptor]
    have : (f.endpoints.flatMap Endpoint.descriptor).length = 7 * f.endpoints.length := by
      generalize f.endpoints = es
      induction es with
      | nil => rfl
      | cons e es ih =>
        simp only [List.flatMap_cons, List.length_append, ih, List.length_cons]
        simp only [Endpoint.descriptor, List.length_cons, List.length_nil]
        omega
    rw [this]
    simp only [List.length_cons, List.length_nil]

theorem built_describable {d : Device} {pl : Plan} (h : Built d pl) (hd : pl.Describable) : Describable d := by
  have hlen : d.interfaces.length = pl.interfaces.length := by simpa using congrArg List.length h.interfaces
  have hex : ∀ f ∈ d.interfaces, ∃ bls, walk f.classSpecificDescriptor = some bls ∧
      ∀ b ∈ bls, byteAt b 1 ≠ 4 ∧ byteAt b 1 ≠ 5 := by
    intro f hf
    obtain ⟨b, hb, he⟩ := built_mem h.interfaces f hf
    rw [(given_fields he).2.2.2.2.2]
    exact hd.extra b hb
  refine ⟨by rw [hlen]; exact hd.interfaces, ?_, ?_, hex⟩
  · intro f hf
    obtain ⟨b, hb, he⟩ := built_mem h.interfaces f hf
    rw [(given_fields he).2.2.2.1]
    exact hd.endpoints b hb
  · rw [← ifaceDescriptors_flatten _ _ (fun f hf => by
      obtain ⟨bls, hb, _⟩ := hex f hf
      rw [hb]; rfl), ifaceDescriptors_length]
    have : d.interfaces.map (fun f => 9 + f.classSpecificDescriptor.length + 7 * f.endpoints.length) =
        (d.interfaces.map Iface.given).map (fun g => 9 + g.2.2.2.2.2.length + 7 * g.2.2.2.1.length) := by
      rw [List.map_map]; rfl
    rw [this, h.interfaces, List.map_map]
    exact hd.total

theorem built_info {d : Device} {pl : Plan} (h : Built d pl) : devInfo d = pl.info := by
  have hlen : d.interfaces.length = pl.interfaces.length := by simpa using congrArg List.length h.interfaces
  have hf := h.facts
  simp only [devInfo, Plan.info, ← hf, hlen]
  rfl

/-- The string indices stand for the names. -/
theorem built_named {d : Device} {pl : Plan} (h : Built d pl) (T : Nat → Str → Prop)
    (hT : ∀ (i : UInt8) (s : Str), i ≠ 0 → d.stringPool i = some s → some s ∈ pl.names.all → T i.toNat s) :
    ∀ (i : UInt8) (nm : Option Str), (i, nm) ∈ d.nameIndices.zip pl.names.all → Named T i.toNat nm := by
  intro i nm hm
  obtain ⟨hl, hv⟩ := h.names
  cases nm with
  | none =>
    have := hv.unset _ hm rfl
    dsimp only at this
    rw [this]; rfl
  | some s =>
    obtain ⟨h0, hp⟩ := hv.set _ hm s rfl
    refine ⟨?_, hT i s h0 hp (List.of_mem_zip hm).2⟩
    intro hc
    exact h0 (u8_ext (by rw [hc]; rfl))

theorem ifViews_get (l : List Iface) : ∀ (i k : Nat) (v : IfView), (ifViews i l)[k]? = some v →
    ∃ f, l[k]? = some f ∧ v = ifView (i + k) f := by
  induction l with
  | nil => intro i k v h; simp [ifViews] at h
  | cons f fs ih =>
    intro i k v h
    cases k with
    | zero =>
      simp only [ifViews, List.getElem?_cons_zero, Option.some.injEq] at h
      exact ⟨f, rfl, by rw [← h]; rfl⟩
    | succ k =>
      obtain ⟨g, hg, hv⟩ := ih (i + 1) k v (by simpa [ifViews] using h)
      exact ⟨g, by simpa using hg, by rw [hv]; congr 1; omega⟩

theorem built_shows {d : Device} {pl : Plan} (h : Built d pl) (hd : pl.Describable) (T : Nat → Str → Prop)
    (hT : ∀ (i : UInt8) (s : Str), i ≠ 0 → d.stringPool i = some s → some s ∈ pl.names.all → T i.toNat s) :
    ShowsDev T (devView d) pl ∧ ShowsCfg T (cfgView d) pl := by
  have hn := built_named h T hT
  have hf := h.facts
  have hlen : d.interfaces.length = pl.interfaces.length := by simpa using congrArg List.length h.interfaces
  have hz := zip_all d pl.names
  constructor
  · refine ⟨by rw [← hf]; rfl, by rw [← hf]; rfl, by rw [← hf]; rfl, by rw [← hf]; rfl,
      by simp only [devView, h.ep0In]; rfl, by rw [← hf]; rfl, by rw [← hf]; rfl, by rw [← hf]; rfl, ?_, ?_, ?_,
      by rw [← hf]; rfl⟩
    · exact hn _ _ (by rw [hz]; simp [Plan.names])
    · exact hn _ _ (by rw [hz]; simp [Plan.names])
    · exact hn _ _ (by rw [hz]; simp [Plan.names])
  · refine ⟨by rw [← hf]; rfl, hn _ _ (by rw [hz]; simp [Plan.names]), rfl, rfl,
      by simp only [cfgView, ifViews_length, hlen], ?_⟩
    intro k v f hv hp
    obtain ⟨g, hg, rfl⟩ := ifViews_get _ _ _ _ hv
    obtain ⟨f', hf', he⟩ := built_get h.interfaces k g hg
    rw [hp, Option.some.injEq] at hf'
    subst hf'
    obtain ⟨e1, e2, e3, e4, e5, e6⟩ := given_fields he
    obtain ⟨bls, hbls, _⟩ := hd.extra f (List.mem_of_getElem? hp)
    refine ⟨by simp [ifView], rfl, by simp only [ifView, e1], by simp only [ifView, e2], by simp only [ifView, e3], ?_,
      by simp only [ifView, e6, hbls, Option.getD_some], by simp only [ifView, e4]; rfl⟩
    refine hn _ _ ?_
    rw [hz]
    have : (g.stringInterface, f.name) ∈ (d.interfaces.map Iface.stringInterface).zip pl.names.interfaces := by
      refine List.mem_of_getElem? (i := k) ?_
      rw [List.getElem?_zip_eq_some]
      simp [Plan.names, hg, hp]
    simp only [List.mem_cons]
    exact .inr (.inr (.inr (.inr this)))

end Usbip
