import Verif.Lemmas.Slots
import Verif.Lemmas.Urb
import Verif.Lemmas.Host
import Verif.Props.Descriptors
/-!
# Properties of devices: C16 – C21
-/

namespace Usbip
open Spec Samples

/-! ## C16 -/

/-- Reading string descriptor `i` over a control-IN endpoint yields `s` (if `s` fits a string
descriptor at all). -/
def ReadsAs (p : Profile) (d : Device) (i : UInt8) (s : Str) : Prop :=
  units s ≤ 126 → ∀ {σ : Type} (env : Env σ) (ep : Endpoint) (intf : Option Iface) (len : UInt32)
    (data : Bytes) (w : World σ) (lang : UInt16), ep.attributes = 0 → 128 ≤ ep.address.toNat →
    ∃ bs, d.handleUrb env p ep intf len (getDescriptorSetup 3 i lang 0xFFFF) data w = (.ok bs, w) ∧
      decodeStringDescriptor bs = some (s.map Char.toNat)

theorem calls_repr (p : Profile) (cs : List NameCall) : ∀ (d : Device) (n : Names), Repr d n →
    n.Fits cs → ∃ d', d.calls p cs = .ok ((n.run cs).1, d') ∧ Repr d' (n.run cs).2 := by
  induction cs with
  | nil => intro d n h _; exact ⟨d, rfl, h⟩
  | cons c cs ih =>
    intro d n h hf
    obtain ⟨d1, h1, hr⟩ := repr_step p d n c h hf.1
    obtain ⟨d2, h2, hr2⟩ := ih d1 _ hr hf.2
    refine ⟨d2, ?_, hr2⟩
    simp only [Device.calls, h1, Outcome.bind_ok, h2]
    rfl

/-- C16: any sequence of API calls on a new device that never exceeds 254 names succeeds, returns
what the slot specification returns, and leaves every name that is set readable through a non-zero
index no other name has; names that are not set have index 0. -/
theorem C16_slots (p : Profile) (index : UInt32) (cs : List NameCall)
    (hf : Names.initial.Fits cs) :
    ∃ d0 d, Device.new p index = .ok d0 ∧ d0.calls p cs = .ok ((Names.initial.run cs).1, d) ∧
      d.nameIndices.length = (Names.initial.run cs).2.all.length ∧
      ∀ (k : Nat) (i : UInt8) (name : Option Str), d.nameIndices[k]? = some i →
        (Names.initial.run cs).2.all[k]? = some name →
        (name = none → i = 0) ∧
        (∀ s, name = some s → i ≠ 0 ∧ ReadsAs p d i s ∧
          ∀ k' i', k' ≠ k → d.nameIndices[k']? = some i' → i' ≠ i) := by
  obtain ⟨d0, h0, hr0⟩ := repr_new p index
  obtain ⟨d, h1, hl, hv⟩ := calls_repr p cs d0 _ hr0 hf
  have hlen : d.nameIndices.length = (Names.initial.run cs).2.all.length := by
    simp [Device.nameIndices, Names.all, hl]
  refine ⟨d0, d, h0, h1, hlen, ?_⟩
  generalize (Names.initial.run cs).2 = n at *
  intro k i name hi hn
  have hz : ∀ (k : Nat) (i : UInt8), d.nameIndices[k]? = some i → ∃ nm, (d.nameIndices.zip n.all)[k]? = some (i, nm) ∧ n.all[k]? = some nm := by
    intro k i hi
    have hk := (List.getElem?_eq_some_iff.mp hi).1
    refine ⟨n.all[k]'(by omega), ?_, List.getElem?_eq_getElem (by omega)⟩
    rw [List.getElem?_zip_eq_some]
    exact ⟨hi, List.getElem?_eq_getElem (by omega)⟩
  obtain ⟨nm, hz1, hz2⟩ := hz k i hi
  have : nm = name := by rw [hz2] at hn; exact Option.some.inj hn
  subst this
  have hm := List.mem_of_getElem? hz1
  refine ⟨fun h => hv.unset _ hm h, ?_⟩
  intro s hs
  obtain ⟨h3, h4⟩ := hv.set _ hm s hs
  refine ⟨h3, ?_, ?_⟩
  · intro hu σ env ep intf len data w lang ha hd
    obtain ⟨bs, hb, _, _, hdec⟩ := C14_string env p d ep intf len data w i lang 0xFFFF s ha hd h3 h4 hu
      (by show _ ≤ 65535; omega)
    exact ⟨bs, hb, hdec⟩
  · intro k' i' hk hi'
    obtain ⟨nm', hz3, _⟩ := hz k' i' hi'
    have hown := hv.own
    rw [List.pairwise_iff_getElem] at hown
    obtain ⟨b1, e1⟩ := List.getElem?_eq_some_iff.mp hz1
    obtain ⟨b2, e2⟩ := List.getElem?_eq_some_iff.mp hz3
    rcases Nat.lt_or_gt_of_ne hk with hlt | hlt
    · have := hown k' k b2 b1 hlt
      rw [e1, e2] at this
      intro hc
      exact this (by rw [hc]; exact h3) hc
    · have := hown k k' b1 b2 hlt
      rw [e1, e2] at this
      exact (this h3).symm

/-- A sequence that renames, removes and adds names. -/
def sampleCalls : List NameCall :=
  [.withInterface 3 1 1 (some "kbd".toList) [] 0 [], .set .product "p1".toList, .unset .serial,
   .set .product "p2".toList, .withInterface 3 1 1 none [] 0 [], .set .serial "s".toList]

example : Names.initial.Fits sampleCalls ∧
    (Names.initial.run sampleCalls).1 =
      [none, some "Product".toList, some "Serial".toList, some "p1".toList, none, none] ∧
    (Names.initial.run sampleCalls).2.all =
      [some "Default Configuration".toList, some "Manufacturer".toList, some "p2".toList,
       some "s".toList, some "kbd".toList, none] := by
  refine ⟨?_, by decide, by decide⟩
  simp only [sampleCalls, Names.Fits, and_true]
  refine ⟨?_, ?_, ?_, ?_, ?_, ?_⟩ <;> decide

/-! ## C17 -/

/-- C17: allocation takes the smallest free index in 1..254 and changes nothing else. -/
theorem C17_smallest (p : Profile) (d : Device) (s : Str) (i : UInt8) (h1 : 1 ≤ i.toNat)
    (h2 : i.toNat ≤ 254) (hf : d.stringPool i = none)
    (ht : ∀ j : UInt8, 1 ≤ j.toNat → j.toNat < i.toNat → d.stringPool j ≠ none) :
    ∃ pool, d.newString p s = .ok (i, { d with stringPool := pool }) ∧
      pool i = some s ∧ ∀ j, j ≠ i → pool j = d.stringPool j := by
  refine ⟨poolInsert d.stringPool i s, ?_, by simp [poolInsert], fun j hj => by simp [poolInsert, hj]⟩
  unfold Device.newString
  rw [scan_found p d.stringPool i h1 h2 hf (fun j a b => by
    have := ht j a b
    cases h : d.stringPool j <;> simp_all)]
  rfl

/-- C17: adding a named interface: with a handler whose mutex is poisoned it panics; otherwise it takes a
string index exactly as above and announces it, at the end of the interfaces; without a name it takes none
and announces 0. -/
theorem C17_interface (p : Profile) (d : Device) (cls sub proto : UInt8) (es : List Endpoint) (h : Nat) :
    (∀ s i d', d.newString p s = .ok (i, d') →
      d.withInterface p cls sub proto (some s) es h none = .panic ∧
      ∀ cs, d.withInterface p cls sub proto (some s) es h (some cs) = .ok { d' with interfaces := d'.interfaces ++
        [⟨cls, sub, proto, es, i, cs, h⟩] }) ∧
    (∀ s cs, (∀ i d', d.newString p s ≠ .ok (i, d')) →
      ∀ d', d.withInterface p cls sub proto (some s) es h cs ≠ .ok d') ∧
    d.withInterface p cls sub proto none es h none = .panic ∧
    (∀ cs, d.withInterface p cls sub proto none es h (some cs) = .ok { d with interfaces := d.interfaces ++
      [⟨cls, sub, proto, es, 0, cs, h⟩] }) := by
  refine ⟨fun s i d' hn => ?_, fun s cs hn d' e => ?_, rfl, fun cs => rfl⟩
  · simp only [Device.withInterface, hn]
    exact ⟨rfl, fun cs => rfl⟩
  · simp only [Device.withInterface, Outcome.bind_eq_ok] at e
    obtain ⟨⟨i, d1⟩, h1, _⟩ := e
    exact hn i d1 h1

/-- A device with the four initial names gets index 5 for the name of its first interface. -/
example : ∃ d d', Device.new dev 0 = .ok d ∧ d.newString dev "x".toList = .ok (5, d') ∧
    d.withInterface dev 3 1 1 (some "x".toList) [] 0 none = .panic :=
  ⟨_, _, rfl, rfl, rfl⟩

/-- C17: when 1..254 are taken, a build with overflow checks panics. -/
theorem C17_full_checked (p : Profile) (hp : p.overflowChecks = true) (d : Device) (s : Str)
    (ht : ∀ j : UInt8, 1 ≤ j.toNat → j.toNat ≤ 254 → d.stringPool j ≠ none) :
    d.newString p s = .panic := by
  unfold Device.newString
  rw [scan_past p d.stringPool (fun j a b => by
    have := ht j a b
    cases h : d.stringPool j <;> simp_all), newStringScan, hp]
  rfl

/-- C17: a build without overflow checks then hands out 255, then 0, then never returns; the string is
stored at the index handed out and nothing else changes. -/
theorem C17_full_unchecked (p : Profile) (hp : p.overflowChecks = false) (d : Device) (s : Str)
    (ht : ∀ j : UInt8, 1 ≤ j.toNat → j.toNat ≤ 254 → d.stringPool j ≠ none) :
    (d.stringPool 255 = none → ∃ pool, d.newString p s = .ok (255, { d with stringPool := pool }) ∧
      pool 255 = some s ∧ ∀ j, j ≠ 255 → pool j = d.stringPool j) ∧
    (d.stringPool 255 ≠ none → d.stringPool 0 = none →
      ∃ pool, d.newString p s = .ok (0, { d with stringPool := pool }) ∧
        pool 0 = some s ∧ ∀ j, j ≠ 0 → pool j = d.stringPool j) ∧
    (d.stringPool 255 ≠ none → d.stringPool 0 ≠ none → d.newString p s = .diverge) := by
  have e : (255 : UInt8) + 1 = 0 := by decide
  unfold Device.newString
  rw [scan_past p d.stringPool (fun j a b => by
    have := ht j a b
    cases h : d.stringPool j <;> simp_all)]
  refine ⟨?_, ?_, ?_⟩
  · intro h
    refine ⟨poolInsert d.stringPool 255 s, ?_, by simp [poolInsert], fun j hj => by simp [poolInsert, hj]⟩
    simp [newStringScan, hp, h, bind, Outcome.bind, pure]
  · intro h h'
    have : (d.stringPool 255).isNone = false := by cases hh : d.stringPool 255 <;> simp_all
    refine ⟨poolInsert d.stringPool 0 s, ?_, by simp [poolInsert], fun j hj => by simp [poolInsert, hj]⟩
    simp [newStringScan, hp, h', e, this, bind, Outcome.bind, pure]
  · intro h h'
    have h1 : (d.stringPool 255).isNone = false := by cases hh : d.stringPool 255 <;> simp_all
    have h2 : (d.stringPool 0).isNone = false := by cases hh : d.stringPool 0 <;> simp_all
    simp [newStringScan, hp, e, h1, h2, bind, Outcome.bind]

example : ∃ d : Device, (∀ j : UInt8, 1 ≤ j.toNat → j.toNat ≤ 254 → d.stringPool j ≠ none) ∧
    d.stringPool 255 = none ∧ d.stringPool 0 = none :=
  ⟨{ Device.default with stringPool := fun j => if 1 ≤ j.toNat ∧ j.toNat ≤ 254 then some [] else none },
    fun j a b => by simp [a, b], rfl, rfl⟩

/-! ## C18 -/

theorem findEpIn_some (a : UInt8) (l : List Endpoint) (e : Endpoint) :
    findEpIn a l = some e ↔ ∃ l1 l2, l = l1 ++ e :: l2 ∧ e.address = a ∧ ∀ x ∈ l1, x.address ≠ a := by
  induction l with
  | nil => simp [findEpIn]
  | cons x xs ih =>
    rw [findEpIn]
    split
    · rename_i hx
      constructor
      · intro h
        simp only [Option.some.injEq] at h
        subst h
        exact ⟨[], xs, rfl, hx, by simp⟩
      · rintro ⟨l1, l2, he, ha, hn⟩
        cases l1 with
        | nil => simp only [List.nil_append, List.cons.injEq] at he; rw [he.1]
        | cons y ys =>
          simp only [List.cons_append, List.cons.injEq] at he
          exact absurd hx (he.1 ▸ hn y (by simp))
    · rename_i hx
      rw [ih]
      constructor
      · rintro ⟨l1, l2, rfl, ha, hn⟩
        exact ⟨x :: l1, l2, rfl, ha, by simpa using ⟨hx, hn⟩⟩
      · rintro ⟨l1, l2, he, ha, hn⟩
        cases l1 with
        | nil =>
          simp only [List.nil_append, List.cons.injEq] at he
          exact absurd ha (he.1 ▸ hx)
        | cons y ys =>
          simp only [List.cons_append, List.cons.injEq] at he
          exact ⟨ys, l2, he.2, ha, fun z hz => hn z (by simp [hz])⟩

theorem findEpIn_none (a : UInt8) (l : List Endpoint) :
    findEpIn a l = none ↔ ∀ e ∈ l, e.address ≠ a := by
  induction l with
  | nil => simp [findEpIn]
  | cons x xs ih => rw [findEpIn]; split <;> simp_all

theorem findEpIfs_none (a : UInt8) (l : List Iface) :
    findEpIfs a l = none ↔ ∀ f ∈ l, ∀ e ∈ f.endpoints, e.address ≠ a := by
  induction l with
  | nil => simp [findEpIfs]
  | cons x xs ih =>
    rw [findEpIfs]
    cases h : findEpIn a x.endpoints with
    | some e =>
      obtain ⟨l1, l2, he, ha, _⟩ := (findEpIn_some _ _ _).mp h
      simp only [reduceCtorEq, false_iff]
      intro hall
      exact hall x (by simp) e (by rw [he]; simp) ha
    | none =>
      have hno := (findEpIn_none _ _).mp h
      simp only [ih, List.mem_cons, forall_eq_or_imp]
      exact ⟨fun h => ⟨hno, h⟩, fun h => h.2⟩

theorem findEpIfs_some (a : UInt8) (l : List Iface) (e : Endpoint) (o : Option Iface) :
    findEpIfs a l = some (e, o) ↔ ∃ l1 f l2 e1 e2, o = some f ∧ l = l1 ++ f :: l2 ∧
      f.endpoints = e1 ++ e :: e2 ∧ e.address = a ∧ (∀ x ∈ e1, x.address ≠ a) ∧
      ∀ g ∈ l1, ∀ x ∈ g.endpoints, x.address ≠ a := by
  induction l with
  | nil => simp [findEpIfs]
  | cons x xs ih =>
    rw [findEpIfs]
    cases h : findEpIn a x.endpoints with
    | some e' =>
      obtain ⟨e1, e2, he, ha, hn⟩ := (findEpIn_some _ _ _).mp h
      constructor
      · intro hh
        simp only [Option.some.injEq, Prod.mk.injEq] at hh
        obtain ⟨rfl, rfl⟩ := hh
        exact ⟨[], x, xs, e1, e2, rfl, rfl, he, ha, hn, by simp⟩
      · rintro ⟨l1, f, l2, f1, f2, rfl, hl, hf, hfa, hfn, hg⟩
        cases l1 with
        | nil =>
          simp only [List.nil_append, List.cons.injEq] at hl
          obtain ⟨rfl, rfl⟩ := hl
          have := (findEpIn_some a x.endpoints e).mpr ⟨f1, f2, hf, hfa, hfn⟩
          rw [h] at this
          rw [Option.some.inj this]
        | cons y ys =>
          simp only [List.cons_append, List.cons.injEq] at hl
          have := hg y (by simp) e' (by rw [← hl.1, he]; simp)
          exact absurd ha this
    | none =>
      have hno := (findEpIn_none _ _).mp h
      simp only [ih]
      constructor
      · rintro ⟨l1, f, l2, e1, e2, rfl, rfl, hf, ha, hn, hg⟩
        exact ⟨x :: l1, f, l2, e1, e2, rfl, rfl, hf, ha, hn, by
          simp only [List.mem_cons, forall_eq_or_imp]; exact ⟨hno, hg⟩⟩
      · rintro ⟨l1, f, l2, e1, e2, rfl, hl, hf, ha, hn, hg⟩
        cases l1 with
        | nil =>
          simp only [List.nil_append, List.cons.injEq] at hl
          exact absurd ha (hno e (by rw [hl.1, hf]; simp))
        | cons y ys =>
          simp only [List.cons_append, List.cons.injEq] at hl
          exact ⟨ys, f, l2, e1, e2, rfl, hl.2, hf, ha, hn, fun g hgm => hg g (by simp [hgm])⟩

/-- The device has its control endpoints where USB puts them. -/
def Ep0 (d : Device) : Prop :=
  d.ep0In.address = 0x80 ∧ d.ep0Out.address = 0x00 ∧ d.ep0In.attributes = 0 ∧ d.ep0Out.attributes = 0

/-- C18: addresses 0x80 and 0x00 are endpoint zero; any other address resolves to the first
endpoint with that address, in interface order, together with the interface it is in. -/
theorem C18_found (d : Device) (h : Ep0 d) (a : UInt8) (e : Endpoint) (o : Option Iface) :
    d.findEp a = some (e, o) ↔
      (a = 0x80 ∧ e = d.ep0In ∧ o = none) ∨ (a = 0x00 ∧ e = d.ep0Out ∧ o = none) ∨
      (a ≠ 0x80 ∧ a ≠ 0x00 ∧ ∃ l1 f l2 e1 e2, o = some f ∧ d.interfaces = l1 ++ f :: l2 ∧
        f.endpoints = e1 ++ e :: e2 ∧ e.address = a ∧ (∀ x ∈ e1, x.address ≠ a) ∧
        ∀ g ∈ l1, ∀ x ∈ g.endpoints, x.address ≠ a) := by
  unfold Device.findEp
  rw [h.1, h.2.1]
  by_cases h1 : a = 0x80
  · subst h1
    rw [if_pos rfl]
    simp only [Option.some.injEq, Prod.mk.injEq, true_and, ne_eq, not_true_eq_false, false_and,
      or_false, show ((0x80 : UInt8) = 0) = False by simp, eq_comm]
  · rw [if_neg h1]
    by_cases h2 : a = 0x00
    · subst h2
      rw [if_pos rfl]
      simp [eq_comm]
    · rw [if_neg h2, findEpIfs_some]
      simp only [h1, h2, false_and, false_or, ne_eq, not_false_eq_true, true_and]

/-- C18: an address resolves to nothing exactly when no interface declares it. -/
theorem C18_missing (d : Device) (h : Ep0 d) (a : UInt8) :
    d.findEp a = none ↔ a ≠ 0x80 ∧ a ≠ 0x00 ∧ ∀ f ∈ d.interfaces, ∀ e ∈ f.endpoints, e.address ≠ a := by
  unfold Device.findEp
  rw [h.1, h.2.1]
  by_cases h1 : a = 0x80
  · subst h1; simp
  · rw [if_neg h1]
    by_cases h2 : a = 0x00
    · subst h2; simp
    · rw [if_neg h2, findEpIfs_none]; simp [h1, h2]

/-- C18: all public constructors put endpoint zero there, and no builder call moves it. -/
theorem C18_constructors :
    (∀ p index d, Device.new p index = .ok d → Ep0 d) ∧
    (∀ p d c r d', Ep0 d → Device.call p d c = .ok (r, d') → Ep0 d') ∧
    (∀ p h d, rusbDevice p h = .ok (some d) → Ep0 d) ∧
    (∀ p n d, nusbDevice p n = .ok (some d) → Ep0 d) := by
  refine ⟨?_, ?_, ?_, ?_⟩
  · intro p index d h
    simp only [Device.new, Outcome.bind_eq_ok] at h
    obtain ⟨⟨i1, d1⟩, h1, ⟨i2, d2⟩, h2, ⟨i3, d3⟩, h3, ⟨i4, d4⟩, h4, h⟩ := h
    simp only [Outcome.pure_eq, Outcome.ok.injEq] at h
    subst h
    obtain ⟨_, rfl⟩ := newString_inv h1
    obtain ⟨_, rfl⟩ := newString_inv h2
    obtain ⟨_, rfl⟩ := newString_inv h3
    obtain ⟨_, rfl⟩ := newString_inv h4
    exact ⟨rfl, rfl, rfl, rfl⟩
  · intro p d c r d' he h
    cases c with
    | set s n =>
      cases s
      all_goals
        simp only [Device.call, Device.setConfigurationName, Device.setManufacturerName,
          Device.setProductName, Device.setSerialNumber, Outcome.bind_eq_ok] at h
        obtain ⟨⟨i, d1⟩, h1, h⟩ := h
        simp only [Outcome.pure_eq, Outcome.ok.injEq, Prod.mk.injEq] at h
        obtain ⟨_, rfl⟩ := newString_inv h1
        obtain ⟨_, rfl⟩ := h
        exact he
    | unset s =>
      cases s
      all_goals
        simp only [Device.call, Outcome.ok.injEq] at h
        have := congrArg Prod.snd h
        simp only at this
        subst this
        exact he
    | withInterface cls sub proto name es hd cs =>
      simp only [Device.call, Device.withInterface, Outcome.bind_eq_ok] at h
      obtain ⟨d1, ⟨⟨i, d2⟩, h1, _, _, h2⟩, h⟩ := h
      simp only [Outcome.pure_eq, Outcome.ok.injEq, Prod.mk.injEq] at h h2
      obtain ⟨_, rfl⟩ := h
      subst h2
      cases name with
      | none =>
        simp only [Outcome.ok.injEq, Prod.mk.injEq] at h1
        obtain ⟨_, rfl⟩ := h1
        exact he
      | some n =>
        obtain ⟨_, rfl⟩ := newString_inv h1
        exact he
    | withDeviceHandler k =>
      simp only [Device.call, Outcome.ok.injEq, Prod.mk.injEq] at h
      obtain ⟨_, rfl⟩ := h
      exact he
  · intro p h d hh
    obtain ⟨desc, cfg, is, i1, d1, i2, d2, i3, d3, _, _, _, h1, h2, h3, rfl⟩ := rusbDevice_inv hh
    obtain ⟨_, rfl⟩ := rusbString_keeps h1
    obtain ⟨_, rfl⟩ := rusbString_keeps h2
    obtain ⟨_, rfl⟩ := rusbString_keeps h3
    exact ⟨rfl, rfl, rfl, rfl⟩
  · intro p n d hh
    obtain ⟨cfg, is, sp, i1, d1, i2, d2, i3, d3, _, _, _, h1, h2, h3, rfl⟩ := nusbDevice_inv hh
    obtain ⟨_, rfl⟩ := nusbString_keeps h1
    obtain ⟨_, rfl⟩ := nusbString_keeps h2
    obtain ⟨_, rfl⟩ := nusbString_keeps h3
    exact ⟨rfl, rfl, rfl, rfl⟩

example : Ep0 devA ∧ devA.findEp 0x02 = some (⟨0x02, 3, 8, 10⟩, some intf0) ∧
    devA.findEp 0x83 = some (⟨0x83, 3, 8, 1⟩, some intf1) ∧ devA.findEp 0x05 = none := by
  refine ⟨⟨rfl, rfl, rfl, rfl⟩, rfl, rfl, rfl⟩

/-! ## C19 -/

/-- C19: a URB invokes exactly the handler it is addressed to, once, with the request's length,
setup and data, and answers with exactly what the handler returned; if that handler's mutex is
poisoned it panics and invokes nothing; if it is addressed to no handler, none is invoked and
nothing changes. -/
theorem C19_dispatch {σ} (env : Env σ) (p : Profile) (d : Device) (ep : Endpoint)
    (owner : Option Iface) (len : UInt32) (setup : SetupPacket) (data : Bytes) (w : World σ)
    (log : List HCall) :
    (∀ c, addressee d ep owner len setup data = some c → c.poisoned w = false →
      (d.handleUrb (watch env) p ep owner len setup data (World.logged w log)).1
        = (match (c.answer env w.user).1 with
          | .ok reply => .ok reply
          | .err e => .err e
          | .panic => .panic) ∧
      (d.handleUrb (watch env) p ep owner len setup data (World.logged w log)).2.user
        = ((c.answer env w.user).2, log ++ [c])) ∧
    (∀ c, addressee d ep owner len setup data = some c → c.poisoned w = true →
      d.handleUrb (watch env) p ep owner len setup data (World.logged w log)
        = (.panic, World.logged w log)) ∧
    (addressee d ep owner len setup data = none →
      (d.handleUrb (watch env) p ep owner len setup data (World.logged w log)).2
        = World.logged w log) := by
  rw [handleUrb_addressee]
  refine ⟨?_, ?_, ?_⟩
  · intro c hc hp
    rw [hc]
    simp only
    rw [invoke_watch, hp]
    simp only [Bool.false_eq_true, if_false, true_and]
    have := (invoke_eq env w c).2
    rw [hp] at this
    simp only [Bool.false_eq_true, if_false] at this
    simp only [World.logged, this, and_true]
    cases (c.answer env w.user).1 <;> rfl
  · intro c hc hp
    rw [hc]
    simp only
    rw [invoke_watch, hp]
    rfl
  · intro hc
    rw [hc]
    simp only
    split <;> rfl

/-- The interrupt-OUT endpoint of interface 0, a class request to interface 1, and a descriptor
request. -/
example :
    addressee devA ⟨0x02, 3, 8, 10⟩ (some intf0) 3 ⟨0, 0, 0, 0, 0⟩ [1, 2, 3]
      = some (.iface 0 intf0 ⟨0x02, 3, 8, 10⟩ 3 ⟨0, 0, 0, 0, 0⟩ [1, 2, 3]) ∧
    addressee devA devA.ep0Out none 0 ⟨0x21, 9, 0, 0x101, 0⟩ []
      = some (.iface 1 intf1 devA.ep0Out 0 ⟨0x21, 9, 0, 0x101, 0⟩ []) ∧
    addressee devA devA.ep0In none 18 ⟨0x80, 6, 0x100, 0, 18⟩ [] = none ∧
    HCall.poisoned world (.iface 0 intf0 ⟨0x02, 3, 8, 10⟩ 3 ⟨0, 0, 0, 0, 0⟩ [1, 2, 3]) = false := by
  refine ⟨by decide, by decide, by decide, rfl⟩

/-! ## C20 -/

/-- C20: exactly which URBs crash. -/
theorem C20_panics {σ} (env : Env σ) (p : Profile) (d : Device) (ep : Endpoint)
    (owner : Option Iface) (len : UInt32) (setup : SetupPacket) (data : Bytes) (w : World σ) :
    (d.handleUrb env p ep owner len setup data w).1 = .panic ↔
      -- the addressed handler is poisoned or panics itself
      (∃ c, addressee d ep owner len setup data = some c ∧
        (c.poisoned w = true ∨ (c.answer env w.user).1 = .panic)) ∨
      -- unknown transfer type
      3 < ep.attributes.toNat ∨
      -- data endpoint without an interface
      (1 ≤ ep.attributes.toNat ∧ ep.attributes.toNat ≤ 3 ∧ owner = none) ∨
      -- control request to a missing interface, a missing device handler, another recipient
      (ep.attributes.toNat = 0 ∧ ¬ standard ep setup ∧
        ((setup.requestType.toNat % 16 = 1 ∧ d.interfaces.length ≤ setup.index.toNat % 256) ∨
         (setup.requestType.toNat % 16 = 0 ∧ d.deviceHandler = none) ∨
         2 ≤ setup.requestType.toNat % 16)) ∨
      -- the string descriptor whose bLength does not fit a byte, with overflow checks
      (ep.attributes.toNat = 0 ∧ standard ep setup ∧ 128 ≤ ep.address.toNat ∧
        p.overflowChecks = true ∧ setup.value.toNat / 256 = 3 ∧ setup.value.toNat % 256 ≠ 0 ∧
        ∃ s, d.stringPool (UInt8.ofNat (setup.value.toNat % 256)) = some s ∧ 127 ≤ units s % 256) := by
  rw [handleUrb_addressee]
  cases hadr : addressee d ep owner len setup data with
  | some c =>
    have hinv := (invoke_eq env w c).1
    have hto : ∀ r : HRes, r.toOutcome = .panic ↔ r = .panic := by
      intro r; cases r <;> simp [HRes.toOutcome]
    simp only
    rw [hinv]
    have hrest : ¬ (3 < ep.attributes.toNat) ∧ ¬ (1 ≤ ep.attributes.toNat ∧ ep.attributes.toNat ≤ 3 ∧ owner = none)
        ∧ (ep.attributes.toNat = 0 → ¬ standard ep setup) ∧ (ep.attributes.toNat = 0 → 
          ¬ ((setup.requestType.toNat % 16 = 1 ∧ d.interfaces.length ≤ setup.index.toNat % 256) ∨
         (setup.requestType.toNat % 16 = 0 ∧ d.deviceHandler = none) ∨
         2 ≤ setup.requestType.toNat % 16)) := by
      unfold addressee at hadr
      split at hadr
      · rename_i h0
        refine ⟨by omega, by omega, ?_⟩
        split at hadr
        · simp at hadr
        · rename_i hs
          refine ⟨fun _ => hs, fun _ => ?_⟩
          split at hadr
          · rename_i h1
            rintro (⟨_, h⟩ | h | h)
            · rw [List.getElem?_eq_none h] at hadr
              simp at hadr
            · omega
            · omega
          · split at hadr
            · rintro (⟨_, h⟩ | ⟨_, h⟩ | h)
              · omega
              · rw [h] at hadr; simp at hadr
              · omega
            · simp at hadr
      · rename_i h0
        split at hadr
        · rename_i h3
          refine ⟨by omega, ?_, fun h => absurd h h0, fun h => absurd h h0⟩
          rintro ⟨_, _, rfl⟩
          simp at hadr
        · simp at hadr
    obtain ⟨r1, r2, r3, r4⟩ := hrest
    constructor
    · intro h
      left
      refine ⟨c, rfl, ?_⟩
      by_cases hp : c.poisoned w = true
      · exact Or.inl hp
      · rw [if_neg hp] at h
        exact Or.inr ((hto _).mp h)
    · rintro (⟨c', hc, h⟩ | h | h | ⟨h0, _, h⟩ | ⟨h0, hs, _⟩)
      · simp only [Option.some.injEq] at hc
        subst hc
        by_cases hp : c.poisoned w = true
        · rw [if_pos hp]
        · rw [if_neg hp, hto]
          exact h.resolve_left hp
      · exact absurd h r1
      · exact absurd h r2
      · exact absurd h (r4 h0)
      · exact absurd hs (r3 h0)
  | none =>
    simp only [reduceCtorEq, false_and, exists_false, false_or]
    by_cases hstd : ep.attributes.toNat = 0 ∧ standard ep setup
    · rw [if_pos hstd]
      obtain ⟨h0, hs⟩ := hstd
      simp only [h0, hs, not_true_eq_false, false_and, and_false, or_false, true_and, false_or,
        show ¬ (3 < 0) by omega, show ¬ (1 ≤ 0) by omega]
      by_cases hin : 128 ≤ ep.address.toNat
      · rw [if_pos hin, getDescriptor_panic]
        simp [hin]
      · rw [if_neg hin]
        simp [hin]
    · rw [if_neg hstd]
      simp only [true_iff]
      unfold addressee at hadr
      split at hadr
      · rename_i h0
        have hs : ¬ standard ep setup := fun h => hstd ⟨h0, h⟩
        rw [if_neg hs] at hadr
        right; right; left
        refine ⟨h0, hs, ?_⟩
        split at hadr
        · rename_i h1
          left
          rw [Option.map_eq_none_iff, List.getElem?_eq_none_iff] at hadr
          exact ⟨h1, hadr⟩
        · split at hadr
          · rename_i h1
            right; left
            exact ⟨h1, Option.map_eq_none_iff.mp hadr⟩
          · right; right; omega
      · split at hadr
        · right; left
          exact ⟨by omega, by omega, Option.map_eq_none_iff.mp hadr⟩
        · left; omega

/-- C20: and processing always terminates. -/
theorem C20_terminates {σ} (env : Env σ) (p : Profile) (d : Device) (ep : Endpoint)
    (owner : Option Iface) (len : UInt32) (setup : SetupPacket) (data : Bytes) (w : World σ) :
    (d.handleUrb env p ep owner len setup data w).1 ≠ .diverge := by
  rw [handleUrb_addressee]
  cases addressee d ep owner len setup data with
  | some c =>
    simp only
    rw [(invoke_eq env w c).1]
    split
    · simp
    · cases (c.answer env w.user).1 <;> simp [HRes.toOutcome]
  | none =>
    simp only
    split
    · simp only
      split
      · exact getDescriptor_terminates _ _ _
      · simp
    · simp

/-- A request to interface 7 of a device with two interfaces, and one to an endpoint
(CLEAR_FEATURE(ENDPOINT_HALT), which every host may send). -/
example : (devA.handleUrb env release devA.ep0Out none 0 ⟨0x21, 9, 0, 7, 0⟩ [] world).1 = .panic ∧
    (devA.handleUrb env release devA.ep0Out none 0 ⟨0x02, 1, 0, 0x81, 0⟩ [] world).1 = .panic := by
  constructor
  · rw [C20_panics]
    right; right; right; left
    refine ⟨rfl, by decide, Or.inl ⟨by decide, by decide⟩⟩
  · rw [C20_panics]
    right; right; right; left
    refine ⟨rfl, by decide, Or.inr (Or.inr (by decide))⟩

/-! ## C21 -/

/-- C21: SET_CONFIGURATION succeeds without any handler: no data for wLength 0, the single current
configuration value otherwise.  Nothing changes. -/
theorem C21_set_configuration {σ} (env : Env σ) (p : Profile) (d : Device) (ep : Endpoint)
    (owner : Option Iface) (len : UInt32) (setup : SetupPacket) (data : Bytes) (w : World σ)
    (ha : ep.attributes = 0) (hd : ep.address.toNat < 128)
    (h1 : setup.requestType = 0x00) (h2 : setup.request = 9) :
    d.handleUrb env p ep owner len setup data w =
      (.ok (if setup.length = 0 then [] else [d.configurationValue]), w) := by
  rw [handleUrb_standard _ _ _ _ _ _ _ _ _ (by rw [ha]; rfl)
    (Or.inr ⟨hd, by rw [h1]; rfl, by rw [h2]; rfl⟩), if_neg (by omega), clip_take _ _ (by simp)]
  by_cases h0 : setup.length = 0
  · rw [if_pos h0, h0]; rfl
  · rw [if_neg h0]
    have : 1 ≤ setup.length.toNat := by
      have : setup.length.toNat ≠ 0 := fun h => h0 (by rw [← UInt16.toNat_inj]; exact h)
      omega
    rw [List.take_of_length_le (by simpa using this)]

example : devA.handleUrb env dev devA.ep0Out none 0 ⟨0x00, 9, 1, 0, 0⟩ [] world = (.ok [], world) := by
  rw [C21_set_configuration _ _ _ _ _ _ _ _ _ rfl (by decide) rfl rfl]; rfl

end Usbip
