import Verif.Lemmas.Sharing
import Verif.Props.HostDesc
/-!
# Which host devices are shared: C77
-/

namespace Usbip
open Spec Samples

/-! ### Helper lemmas -/

theorem numbers_digits (sep : UInt8) (ds : Bytes) (r : Bytes) : ∀ v, (∀ b ∈ ds, b ≠ sep) →
    numbers sep v (ds ++ r) = numbers sep (ds.foldl (fun v b => 10 * v + (b.toNat - 48)) v) r := by
  induction ds with
  | nil => intro v _; rfl
  | cons b ds ih =>
    intro v h
    rw [List.cons_append, numbers, if_neg (h b (List.mem_cons_self ..)), ih _ (fun x hx => h x (List.mem_cons_of_mem _ hx))]
    rfl

theorem decimal_not_slash (n : Nat) (h : n < 256) : ∀ b ∈ decimal n, b ≠ 47 := by
  have := decimalGood_all n h
  simp only [decimalGood, Bool.and_eq_true, beq_iff_eq, decide_eq_true_eq, List.all_eq_true] at this
  intro b hb
  have := (this.2 b hb).1
  rintro rfl
  revert this
  decide

/-- Three numerals with a separator between them. -/
theorem numbers_three (sep : UInt8) (a b c : Nat) (ha : a < 256) (hb : b < 256) (hc : c < 256)
    (hs : ∀ n < 256, ∀ x ∈ decimal n, x ≠ sep) :
    numbers sep 0 (decimal a ++ [sep] ++ decimal b ++ [sep] ++ decimal c) = [a, b, c] := by
  simp only [List.append_assoc, List.cons_append, List.nil_append]
  have hv : ∀ n < 256, (decimal n).foldl (fun v b => 10 * v + (b.toNat - 48)) 0 = n := fun n hn => (decimal_good n hn).1
  rw [numbers_digits sep _ _ 0 (hs a ha), hv a ha, numbers, if_pos rfl, numbers_digits sep _ _ 0 (hs b hb), hv b hb,
    numbers, if_pos rfl]
  have := numbers_digits sep (decimal c) [] 0 (hs c hc)
  rw [List.append_nil, hv c hc] at this
  rw [this]
  rfl

theorem busId_numbers (a b c : Nat) (ha : a < 256) (hb : b < 256) (hc : c < 256) :
    numbers 45 0 (formatBusId a b c) = [a, b, c] :=
  numbers_three 45 a b c ha hb hc (fun n hn x hx => ((decimal_good n hn).2.2 x hx).2)

theorem path_numbers (a b c : Nat) (ha : a < 256) (hb : b < 256) (hc : c < 256) :
    ∃ rest, formatPath a b c = ascii "/sys/bus/" ++ rest ∧ numbers 47 0 rest = [a, b, c] :=
  ⟨_, by simp only [formatPath, List.append_assoc]; rfl,
    by have := numbers_three 47 a b c ha hb hc (fun n hn => decimal_not_slash n hn)
       simpa only [List.append_assoc] using this⟩

theorem rusbInterfaces_shape {h : Nat → Nat} (ifs : List (List HostIfDesc)) : ∀ {i : Nat} {is : List Iface},
    rusbInterfaces h i ifs = .ok is →
    is.map Iface.handler = (List.range ifs.length).map (fun k => h (i + k)) ∧
    is.map (fun f => some (f.interfaceClass, f.interfaceSubclass, f.interfaceProtocol)) =
      ifs.map (fun alts => alts.head?.map (fun f => (f.cls, f.sub, f.proto))) := by
  induction ifs with
  | nil => intro i is hh; simp [rusbInterfaces] at hh; subst hh; simp
  | cons alts rest ih =>
    intro i is hh
    cases alts with
    | nil => simp [rusbInterfaces] at hh
    | cons d ds =>
      simp only [rusbInterfaces, Outcome.bind_eq_ok, Outcome.pure_eq, Outcome.ok.injEq] at hh
      obtain ⟨is', h1, rfl⟩ := hh
      obtain ⟨ih1, ih2⟩ := ih h1
      simp only [List.map_cons, List.length_cons, List.range_succ_eq_map, List.map_map, ih1, ih2]
      refine ⟨?_, rfl⟩
      congr 1
      apply List.map_congr_left
      intro k _
      simp only [Function.comp_apply]
      congr 1
      omega

theorem nusbInterfaces_shape {n : NusbDev} (ifs : List (List HostIfDesc)) : ∀ {i : Nat} {is : List Iface},
    nusbInterfaces n i ifs = .ok is →
    is.map Iface.handler = (List.range ifs.length).map (fun k => n.ifHandler (i + k)) ∧
    is.map (fun f => some (f.interfaceClass, f.interfaceSubclass, f.interfaceProtocol)) =
      ifs.map (fun alts => alts.head?.map (fun f => (f.cls, f.sub, f.proto))) := by
  induction ifs with
  | nil => intro i is hh; simp [nusbInterfaces] at hh; subst hh; simp
  | cons alts rest ih =>
    intro i is hh
    cases alts with
    | nil => simp [nusbInterfaces] at hh
    | cons d ds =>
      simp only [nusbInterfaces] at hh
      split at hh
      · simp at hh
      simp only [Outcome.bind_eq_ok, Outcome.pure_eq, Outcome.ok.injEq] at hh
      obtain ⟨is', h1, rfl⟩ := hh
      obtain ⟨ih1, ih2⟩ := ih h1
      simp only [List.map_cons, List.length_cons, List.range_succ_eq_map, List.map_map, ih1, ih2]
      refine ⟨?_, rfl⟩
      congr 1
      apply List.map_congr_left
      intro k _
      simp only [Function.comp_apply]
      congr 1
      omega

/-- The host device `d` stands for (libusb). -/
def IsOf (d : Device) (h : HostDev) : Prop :=
  ∃ desc cfg, h.desc = some desc ∧ h.cfg = some cfg ∧
    StandsFor d h.bus.toNat h.address.toNat h.port.toNat desc.vendorId desc.productId h.ifHandler h.devHandler cfg

/-- The same for nusb, which does not report a port: 0 is shown. -/
def IsOfNusb (d : Device) (n : NusbDev) : Prop :=
  ∃ cfg, n.cfg = some cfg ∧
    StandsFor d n.bus.toNat n.address.toNat 0 n.vendorId n.productId n.ifHandler n.devHandler cfg

theorem rusb_isOf {p : Profile} {h : HostDev} {d : Device} (hd : rusbDevice p h = .ok (some d)) : IsOf d h := by
  obtain ⟨desc, cfg, is, P, i1, i2, i3, e1, e2, e3, rfl⟩ := rusb_fields hd
  obtain ⟨s1, s2⟩ := rusbInterfaces_shape _ e3
  refine ⟨desc, cfg, e1, e2, busId_numbers _ _ _ (u8_lt _) (u8_lt _) (u8_lt _),
    path_numbers _ _ _ (u8_lt _) (u8_lt _) (u8_lt _), ?_, ?_, rfl, rfl, rfl, ?_, s2⟩
  · simp [rusbBase]
  · simp [rusbBase]
  · show is.map Iface.handler = _
    rw [s1]
    simp only [Nat.zero_add]

theorem nusb_isOf {p : Profile} {n : NusbDev} {d : Device} (hd : nusbDevice p n = .ok (some d)) : IsOfNusb d n := by
  obtain ⟨cfg, sp, is, P, i1, i2, i3, e1, e2, e3, rfl⟩ := nusb_fields hd
  obtain ⟨s1, s2⟩ := nusbInterfaces_shape _ e3
  refine ⟨cfg, e1, busId_numbers _ _ _ (u8_lt _) (u8_lt _) (by decide),
    path_numbers _ _ _ (u8_lt _) (u8_lt _) (by decide), ?_, ?_, rfl, rfl, rfl, ?_, s2⟩
  · simp [nusbBase]
  · rfl
  · show is.map Iface.handler = _
    rw [s1]
    simp only [Nat.zero_add]

theorem filterMut_passed {φ} (filter : φ → RusbEntry → Bool × φ) (l : List RusbEntry) : ∀ f,
    filterMut filter f l = passed filter f l := by
  induction l with
  | nil => intro f; rfl
  | cons e es ih =>
    intro f
    have hp : passed filter f (e :: es) =
        (if (filter f e).1 then [e] else []) ++ passed filter (filter f e).2 es := by
      simp only [passed, List.length_cons, List.range_succ_eq_map, List.filterMap_cons, List.filterMap_map]
      have h0 : verdict filter f (e :: es) 0 = (filter f e).1 := rfl
      have hs : ∀ k, verdict filter f (e :: es) (k + 1) = verdict filter (filter f e).2 es k := by
        intro k
        simp only [verdict, List.getElem?_cons_succ, List.take_succ_cons, List.foldl_cons]
      rw [h0]
      have hc : ((fun k => if verdict filter f (e :: es) k then (e :: es)[k]? else none) ∘ Nat.succ) =
          (fun k => if verdict filter (filter f e).2 es k then es[k]? else none) := by
        funext k
        simp only [Function.comp_apply, Nat.succ_eq_add_one, hs, List.getElem?_cons_succ]
      rw [hc]
      cases (filter f e).1 <;> rfl
    rw [hp, filterMut]
    split <;> simp [ih]

theorem rusb_list (p : Profile) (l : List HostDev) :
    let kept := l.filter (fun h => h.desc.isSome && h.cfg.isSome)
    ((∃ h ∈ kept, Defective h) ∧ withRusbDeviceHandles p l = .panic) ∨
    ((∀ h ∈ kept, ¬ Defective h) ∧ ∃ ds, withRusbDeviceHandles p l = .ok ds ∧
      Pointwise (fun d h => rusbDevice p h = .ok (some d)) ds kept) := by
  induction l with
  | nil => exact Or.inr ⟨by simp, [], rfl, .nil⟩
  | cons h hs ih =>
    intro kept
    simp only [withRusbDeviceHandles]
    rcases rusbDevice_total p h with ⟨h1, h2⟩ | ⟨h1, h2⟩ | ⟨h1, ⟨h3, h4⟩, d, h2⟩
    · have hk : kept = hs.filter (fun h => h.desc.isSome && h.cfg.isSome) := by
        simp only [kept]
        rw [List.filter_cons_of_neg]
        rcases h1 with h1 | h1 <;> simp [h1]
      rw [hk, h2, Outcome.bind_ok]
      rcases ih with ⟨a, b⟩ | ⟨a, ds, b, c⟩
      · exact Or.inl ⟨a, by rw [b]; rfl⟩
      · exact Or.inr ⟨a, ds, by rw [b]; rfl, c⟩
    · refine Or.inl ⟨⟨h, ?_, h1⟩, by rw [h2]; rfl⟩
      obtain ⟨desc, cfg, e1, e2, _⟩ := h1
      simp [kept, e1, e2]
    · have hk : kept = h :: hs.filter (fun h => h.desc.isSome && h.cfg.isSome) := by
        simp only [kept]
        rw [List.filter_cons_of_pos]
        simp [Option.isSome_iff_ne_none, h3, h4]
      rw [hk, h2, Outcome.bind_ok]
      rcases ih with ⟨⟨x, a, a'⟩, b⟩ | ⟨a, ds, b, c⟩
      · exact Or.inl ⟨⟨x, List.mem_cons_of_mem _ a, a'⟩, by rw [b]; rfl⟩
      · refine Or.inr ⟨?_, d :: ds, by rw [b]; rfl, .cons h2 c⟩
        intro x hx
        rcases List.mem_cons.mp hx with rfl | hx
        · exact h1
        · exact a x hx

theorem nusb_list (p : Profile) (l : List NusbDev) :
    let kept := l.filter (fun n => n.opened && n.cfg.isSome)
    ((∃ n ∈ kept, DefectiveNusb n) ∧ withNusbDevices p l = .panic) ∨
    ((∀ n ∈ kept, ¬ DefectiveNusb n) ∧ ∃ ds, withNusbDevices p l = .ok ds ∧
      Pointwise (fun d n => nusbDevice p n = .ok (some d)) ds kept) := by
  induction l with
  | nil => exact Or.inr ⟨by simp, [], rfl, .nil⟩
  | cons h hs ih =>
    intro kept
    simp only [withNusbDevices]
    rcases nusbDevice_total p h with ⟨h1, h2⟩ | ⟨h1, h2⟩ | ⟨h1, ⟨h3, h4⟩, d, h2⟩
    · have hk : kept = hs.filter (fun n => n.opened && n.cfg.isSome) := by
        simp only [kept]
        rw [List.filter_cons_of_neg]
        rcases h1 with h1 | h1 <;> simp [h1]
      rw [hk, h2, Outcome.bind_ok]
      rcases ih with ⟨a, b⟩ | ⟨a, ds, b, c⟩
      · exact Or.inl ⟨a, by rw [b]; rfl⟩
      · exact Or.inr ⟨a, ds, by rw [b]; rfl, c⟩
    · refine Or.inl ⟨⟨h, ?_, h1⟩, by rw [h2]; rfl⟩
      obtain ⟨cfg, e1, e2, _⟩ := h1
      simp [kept, e1, e2]
    · have hk : kept = h :: hs.filter (fun n => n.opened && n.cfg.isSome) := by
        simp only [kept]
        rw [List.filter_cons_of_pos]
        simp [Option.isSome_iff_ne_none, h3, h4]
      rw [hk, h2, Outcome.bind_ok]
      rcases ih with ⟨⟨x, a, a'⟩, b⟩ | ⟨a, ds, b, c⟩
      · exact Or.inl ⟨⟨x, List.mem_cons_of_mem _ a, a'⟩, by rw [b]; rfl⟩
      · refine Or.inr ⟨?_, d :: ds, by rw [b]; rfl, .cons h2 c⟩
        intro x hx
        rcases List.mem_cons.mp hx with rfl | hx
        · exact h1
        · exact a x hx

theorem pointwise_to {α β : Type} {R S : α → β → Prop} {l : List α} {m : List β} (h : Pointwise R l m)
    (hi : ∀ a b, R a b → S a b) : Pointwise S l m := by
  induction h with
  | nil => exact .nil
  | cons h _ ih => exact .cons (hi _ _ h) ih

theorem pointwise_mem {α β : Type} {R : α → β → Prop} {l : List α} {m : List β} (h : Pointwise R l m) :
    ∀ a ∈ l, ∃ b ∈ m, R a b := by
  induction h with
  | nil => simp
  | cons h _ ih =>
    intro a ha
    rcases List.mem_cons.mp ha with rfl | ha
    · exact ⟨_, List.mem_cons_self .., h⟩
    · obtain ⟨b, hb, hr⟩ := ih a ha
      exact ⟨b, List.mem_cons_of_mem _ hb, hr⟩

theorem usable_eq (l : List RusbEntry) : l.filterMap usable =
    (l.filterMap RusbEntry.openResult).filter (fun h => h.desc.isSome && h.cfg.isSome) := by
  induction l with
  | nil => rfl
  | cons e es ih =>
    cases ho : e.openResult with
    | none => simp [usable, ho, ih]
    | some h =>
      rw [List.filterMap_cons, List.filterMap_cons, ho, List.filter_cons, ← ih]
      simp only [usable, ho, Option.bind_some]
      cases (h.desc.isSome && h.cfg.isSome) <;> rfl

/-! ## C77 -/

/-- C77 for libusb: sharing the host's devices fails exactly if some device that passes the filter,
can be opened and described is defective; otherwise the server starts with exactly one device for
every device that passes the filter and can be opened and described, in order, and each stands for
its host device.  If the host's devices cannot be enumerated the server starts with none. -/
theorem C77_rusb {φ} (p : Profile) (l : List RusbEntry) (filter : φ → RusbEntry → Bool × φ) (f : φ) :
    (newFromHostWithFilter p (some l) filter f = .panic ↔ ∃ h ∈ (passed filter f l).filterMap usable, Defective h) ∧
    ((∀ h ∈ (passed filter f l).filterMap usable, ¬ Defective h) →
      ∃ ds, newFromHostWithFilter p (some l) filter f = .ok ds ∧
        Pointwise IsOf ds ((passed filter f l).filterMap usable)) ∧
    newFromHostWithFilter p none filter f = .ok [] := by
  have hl := rusb_list p ((passed filter f l).filterMap RusbEntry.openResult)
  have he : newFromHostWithFilter p (some l) filter f =
      withRusbDeviceHandles p ((passed filter f l).filterMap RusbEntry.openResult) := by
    simp only [newFromHostWithFilter, withRusbDevices, filterMut_passed]
  rw [he, usable_eq]
  refine ⟨?_, ?_, rfl⟩
  · rcases hl with ⟨h1, h2⟩ | ⟨h1, ds, h2, _⟩
    · exact ⟨fun _ => h1, fun _ => h2⟩
    · constructor
      · intro h; rw [h2] at h; simp at h
      · rintro ⟨h, a, b⟩; exact absurd b (h1 h a)
  · intro hn
    rcases hl with ⟨⟨h, a, b⟩, h2⟩ | ⟨h1, ds, h2, h3⟩
    · exact absurd b (hn h a)
    · exact ⟨ds, h2, pointwise_to h3 (fun d h => rusb_isOf)⟩

/-- C77 for nusb. -/
theorem C77_nusb (p : Profile) (l : List NusbDev) :
    (withNusbDevices p l = .panic ↔ ∃ n ∈ l.filterMap usableNusb, DefectiveNusb n) ∧
    ((∀ n ∈ l.filterMap usableNusb, ¬ DefectiveNusb n) →
      ∃ ds, withNusbDevices p l = .ok ds ∧ Pointwise IsOfNusb ds (l.filterMap usableNusb)) := by
  have hl := nusb_list p l
  have hu : l.filterMap usableNusb = l.filter (fun n => n.opened && n.cfg.isSome) := by
    induction l with
    | nil => rfl
    | cons n ns ih =>
      rw [List.filterMap_cons, List.filter_cons, ← ih (nusb_list p ns)]
      unfold usableNusb
      cases (n.opened && n.cfg.isSome) <;> rfl
  rw [hu]
  constructor
  · rcases hl with ⟨h1, h2⟩ | ⟨h1, ds, h2, _⟩
    · exact ⟨fun _ => h1, fun _ => h2⟩
    · constructor
      · intro h; rw [h2] at h; simp at h
      · rintro ⟨h, a, b⟩; exact absurd b (h1 h a)
  · intro hn
    rcases hl with ⟨⟨h, a, b⟩, h2⟩ | ⟨h1, ds, h2, h3⟩
    · exact absurd b (hn h a)
    · exact ⟨ds, h2, pointwise_to h3 (fun d h => nusb_isOf)⟩

theorem nodup_of_pointwise {β : Type} {R : Device → β → Prop} {key : β → Nat × Nat} {ds : List Device} {m : List β}
    (hp : Pointwise R ds m) (hk : ∀ d b, R d b → ∃ c, numbers 45 0 d.busId = [(key b).1, (key b).2, c])
    (hn : (m.map key).Nodup) : (ds.map Device.busId).Nodup := by
  induction hp with
  | nil => simp
  | cons h hs ih =>
    rename_i d b ds m
    rw [List.map_cons, List.nodup_cons] at hn ⊢
    refine ⟨fun hm => hn.1 ?_, ih hn.2⟩
    obtain ⟨d', hd', he⟩ := List.mem_map.mp hm
    obtain ⟨b', hb', hr⟩ := pointwise_mem hs d' hd'
    obtain ⟨c, e1⟩ := hk d b h
    obtain ⟨c', e2⟩ := hk d' b' hr
    rw [he, e1] at e2
    simp only [List.cons.injEq] at e2
    exact List.mem_map.mpr ⟨b', hb', Prod.ext e2.1.symm e2.2.1.symm⟩

/-- C77: the devices a server shares have different bus ids, since on a host no two devices have the
same bus number and address; so they meet the condition of C22 to C30, C71 and C76. -/
theorem C77_distinct {φ} (p : Profile) (l : List RusbEntry) (filter : φ → RusbEntry → Bool × φ) (f : φ)
    (ds : List Device) (hd : newFromHostWithFilter p (some l) filter f = .ok ds)
    (hn : (((passed filter f l).filterMap usable).map (fun h => (h.bus.toNat, h.address.toNat))).Nodup) :
    (ds.map Device.busId).Nodup := by
  obtain ⟨h1, h2, _⟩ := C77_rusb p l filter f
  have h3 : ∀ h ∈ (passed filter f l).filterMap usable, ¬ Defective h := by
    intro h hm hdef
    rw [h1.mpr ⟨h, hm, hdef⟩] at hd
    simp at hd
  obtain ⟨ds', e, hp⟩ := h2 h3
  rw [hd] at e
  simp only [Outcome.ok.injEq] at e
  subst e
  exact nodup_of_pointwise hp (fun d h ⟨desc, cfg, _, _, hs⟩ => ⟨_, hs.busId⟩) hn

theorem C77_distinct_nusb (p : Profile) (l : List NusbDev) (ds : List Device) (hd : withNusbDevices p l = .ok ds)
    (hn : ((l.filterMap usableNusb).map (fun h => (h.bus.toNat, h.address.toNat))).Nodup) :
    (ds.map Device.busId).Nodup := by
  obtain ⟨h1, h2⟩ := C77_nusb p l
  have h3 : ∀ h ∈ l.filterMap usableNusb, ¬ DefectiveNusb h := by
    intro h hm hdef
    rw [h1.mpr ⟨h, hm, hdef⟩] at hd
    simp at hd
  obtain ⟨ds', e, hp⟩ := h2 h3
  rw [hd] at e
  simp only [Outcome.ok.injEq] at e
  subst e
  exact nodup_of_pointwise hp (fun d h ⟨cfg, _, hs⟩ => ⟨_, hs.busId⟩) hn

/-- For a filter that does not remember anything, the devices passed are those it accepts. -/
theorem passed_pure (g : RusbEntry → Bool) (l : List RusbEntry) :
    passed (fun (_ : Unit) e => (g e, ())) () l = l.filter g := by
  rw [← filterMut_passed]
  induction l with
  | nil => rfl
  | cons e es ih => simp only [filterMut, ih, List.filter_cons]

/-! ### Cases -/

/-- A host with five devices; the filter accepts the first three it is asked about. The second cannot
be opened, the third has no readable configuration. -/
def hostList : List RusbEntry :=
  [⟨0, some hostA⟩, ⟨1, none⟩, ⟨2, some { hostA with address := 24, cfg := none }⟩,
   ⟨3, some { hostA with address := 25 }⟩, ⟨4, some { hostA with address := 26 }⟩]

/-- Accepts odd numbered devices and the first two it is asked about. -/
def someFilter (n : Nat) (e : RusbEntry) : Bool × Nat := (decide (n < 2) || e.id % 2 == 1, n + 1)

example : (passed someFilter 0 hostList).map RusbEntry.id = [0, 1, 3] ∧
    ((passed someFilter 0 hostList).filterMap usable).map (fun h => h.address.toNat) = [23, 25] := by decide

example : ∀ h ∈ (passed someFilter 0 hostList).filterMap usable, ¬ Defective h := by
  have h0 : (passed someFilter 0 hostList).filterMap usable = [hostA, { hostA with address := 25 }] := rfl
  rw [h0]
  intro h hm
  have hh : h.desc = hostA.desc ∧ h.cfg = hostA.cfg ∧ h.stringAscii = hostA.stringAscii := by
    simp only [List.mem_cons, List.not_mem_nil, or_false] at hm
    rcases hm with rfl | rfl <;> exact ⟨rfl, rfl, rfl⟩
  rintro ⟨desc, cfg, e1, e2, hd⟩
  rw [hh.1] at e1
  rw [hh.2.1] at e2
  simp only [hostA, Option.some.injEq] at e1 e2
  subst e1 e2
  rw [hh.2.2] at hd
  rcases hd with hd | ⟨i, hd | hd | hd, hr⟩
  · simp at hd
  · simp only [Option.some.injEq] at hd; subst hd; simp [hostA] at hr
  · simp at hd
  · simp only [Option.some.injEq] at hd; subst hd; simp [hostA] at hr

/-- A defective device: it announces a serial number that cannot be read. -/
example : Defective { hostA with stringAscii := fun i => if i = 3 then some ['A'] else none } :=
  ⟨_, _, rfl, rfl, Or.inr ⟨9, Or.inr (Or.inr rfl), rfl⟩⟩

/-- One defective device keeps all devices of the host from being shared. -/
example : newFromHostWithFilter release (some
    [⟨0, some hostA⟩, ⟨1, some { hostA with stringAscii := fun _ => none }⟩]) (fun (_ : Unit) _ => (true, ())) () = .panic :=
  rfl

end Usbip
