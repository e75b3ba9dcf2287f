import Verif.Spec.HostDesc
import Verif.Lemmas.Host
import Verif.Lemmas.Descriptor
/-! Helper lemmas about the interfaces built for host devices. -/

namespace Usbip
open Spec

theorem keptEp_block (e : HostEp) : hostEndpointBlocks (keptEp e) = [endpointBlock e.rusb] := by
  have : UInt8.ofNat (e.attributes.toNat % 4) = e.attributes &&& 3 := by
    apply u8_ext
    rw [UInt8.toNat_and]
    have : e.attributes.toNat &&& 3 = e.attributes.toNat % 4 := Nat.and_two_pow_sub_one_eq_mod _ 2
    simp [this]
    omega
  simp [hostEndpointBlocks, keptEp, endpointBlock, HostEp.rusb, HostEp.transferType, this, walk]

theorem keptEpNusb_block (e : HostEp) : hostEndpointBlocks (keptEpNusb e) = [endpointBlock e.nusb] := by
  have h1 : UInt8.ofNat (e.attributes.toNat % 4) = e.attributes &&& 3 := by
    apply u8_ext
    rw [UInt8.toNat_and]
    have : e.attributes.toNat &&& 3 = e.attributes.toNat % 4 := Nat.and_two_pow_sub_one_eq_mod _ 2
    simp [this]
    omega
  have h2 : UInt16.ofNat (e.maxPacketSize.toNat % 2048) = e.maxPacketSize &&& 0x7FF := by
    apply u16_ext
    rw [UInt16.toNat_and]
    have : e.maxPacketSize.toNat &&& 2047 = e.maxPacketSize.toNat % 2048 :=
      Nat.and_two_pow_sub_one_eq_mod _ 11
    simp [this]
    omega
  simp [hostEndpointBlocks, keptEpNusb, keptEp, endpointBlock, HostEp.nusb, HostEp.transferType, h1, h2, walk]

theorem flatMap_single {α β} (l : List α) (f : α → List β) (g : α → β) (h : ∀ a, f a = [g a]) :
    l.flatMap f = l.map g := by
  induction l with
  | nil => rfl
  | cons a l ih => simp [h, ih]

/-- One published interface has the blocks of the kept part of the host's first setting. -/
theorem kept_setting (i : Nat) (d : HostIfDesc) (ep : HostEp → HostEp) (ex : Bytes → Bytes)
    (mk : HostEp → Endpoint) (hep : ∀ e, hostEndpointBlocks (ep e) = [endpointBlock (mk e)]) (k : Nat) :
    hostSettingBlocks { d with number := UInt8.ofNat i, setting := 0, endpoints := d.endpoints.map ep
                               extra := ex d.extra } =
    interfaceBlocks i { interfaceClass := d.cls, interfaceSubclass := d.sub, interfaceProtocol := d.proto
                        endpoints := d.endpoints.map mk, stringInterface := d.stringIndex.getD 0
                        classSpecificDescriptor := ex d.extra, handler := k } := by
  simp only [hostSettingBlocks, interfaceBlocks, interfaceBlock, List.length_map, List.flatMap_map,
    List.map_map, List.singleton_append, List.cons_append]
  rw [flatMap_single d.endpoints _ (fun e => endpointBlock (mk e)) hep]
  rfl

theorem rusbInterfaces_blocks {h : Nat → Nat} {i : Nat} {ifs : List (List HostIfDesc)} {is : List Iface}
    (hh : rusbInterfaces h i ifs = .ok is) :
    is.length = ifs.length ∧
    (keptIfs keptEp id i ifs).flatMap (·.flatMap hostSettingBlocks) = allBlocks i is ∧
    (keptIfs keptEp id i ifs).length = ifs.length := by
  induction ifs generalizing i is with
  | nil => simp [rusbInterfaces] at hh; subst hh; simp [keptIfs, allBlocks]
  | cons alts rest ih =>
    cases alts with
    | nil => simp [rusbInterfaces] at hh
    | cons d ds =>
      simp only [rusbInterfaces, Outcome.bind_eq_ok, Outcome.pure_eq, Outcome.ok.injEq] at hh
      obtain ⟨is', h1, rfl⟩ := hh
      obtain ⟨ih1, ih2, ih3⟩ := ih h1
      refine ⟨by simp [ih1], ?_, by simp [keptIfs, ih3]⟩
      simp only [keptIfs, List.take_succ_cons, List.take_zero, List.map_cons, List.map_nil, List.flatMap_cons,
        List.flatMap_nil, List.append_nil, allBlocks, ih2]
      rw [kept_setting i d keptEp id HostEp.rusb keptEp_block (h i)]
      rfl

theorem nusbInterfaces_blocks {n : NusbDev} {i : Nat} {ifs : List (List HostIfDesc)} {is : List Iface}
    (hh : nusbInterfaces n i ifs = .ok is) :
    is.length = ifs.length ∧
    (keptIfs keptEpNusb (fun _ => []) i ifs).flatMap (·.flatMap hostSettingBlocks) = allBlocks i is ∧
    (keptIfs keptEpNusb (fun _ => []) i ifs).length = ifs.length := by
  induction ifs generalizing i is with
  | nil => simp [nusbInterfaces] at hh; subst hh; simp [keptIfs, allBlocks]
  | cons alts rest ih =>
    cases alts with
    | nil => simp [nusbInterfaces] at hh
    | cons d ds =>
      simp only [nusbInterfaces] at hh
      split at hh
      · simp at hh
      simp only [Outcome.bind_eq_ok, Outcome.pure_eq, Outcome.ok.injEq] at hh
      obtain ⟨is', h1, rfl⟩ := hh
      obtain ⟨ih1, ih2, ih3⟩ := ih h1
      refine ⟨by simp [ih1], ?_, by simp [keptIfs, ih3]⟩
      simp only [keptIfs, List.take_succ_cons, List.take_zero, List.map_cons, List.map_nil, List.flatMap_cons,
        List.flatMap_nil, List.append_nil, allBlocks, ih2]
      rw [kept_setting i d keptEpNusb (fun _ => []) HostEp.nusb keptEpNusb_block (n.ifHandler i)]

/-- Where the interfaces of a shared device come from: position by position. -/
theorem rusbInterfaces_get {h : Nat → Nat} {i : Nat} {ifs : List (List HostIfDesc)} {is : List Iface}
    (hh : rusbInterfaces h i ifs = .ok is) (k : Nat) (f : Iface) (hk : is[k]? = some f) :
    ∃ d ds, ifs[k]? = some (d :: ds) ∧ f.handler = h (i + k) ∧ f.endpoints = d.endpoints.map HostEp.rusb ∧
      f.interfaceClass = d.cls ∧ f.interfaceSubclass = d.sub ∧ f.interfaceProtocol = d.proto ∧
      f.classSpecificDescriptor = d.extra := by
  induction ifs generalizing i is k with
  | nil => simp [rusbInterfaces] at hh; subst hh; simp at hk
  | cons alts rest ih =>
    cases alts with
    | nil => simp [rusbInterfaces] at hh
    | cons d ds =>
      simp only [rusbInterfaces, Outcome.bind_eq_ok, Outcome.pure_eq, Outcome.ok.injEq] at hh
      obtain ⟨is', h1, rfl⟩ := hh
      cases k with
      | zero =>
        simp only [List.getElem?_cons_zero, Option.some.injEq] at hk
        subst hk
        exact ⟨d, ds, by simp, rfl, rfl, rfl, rfl, rfl, rfl⟩
      | succ k =>
        obtain ⟨d', ds', e1, e2, e3⟩ := ih h1 k (by simpa using hk)
        exact ⟨d', ds', by simpa using e1, by rw [e2]; congr 1; omega, e3⟩

theorem nusbInterfaces_get {n : NusbDev} {i : Nat} {ifs : List (List HostIfDesc)} {is : List Iface}
    (hh : nusbInterfaces n i ifs = .ok is) (k : Nat) (f : Iface) (hk : is[k]? = some f) :
    ∃ d ds, ifs[k]? = some (d :: ds) ∧ f.handler = n.ifHandler (i + k) ∧
      f.endpoints = d.endpoints.map HostEp.nusb ∧
      f.interfaceClass = d.cls ∧ f.interfaceSubclass = d.sub ∧ f.interfaceProtocol = d.proto := by
  induction ifs generalizing i is k with
  | nil => simp [nusbInterfaces] at hh; subst hh; simp at hk
  | cons alts rest ih =>
    cases alts with
    | nil => simp [nusbInterfaces] at hh
    | cons d ds =>
      simp only [nusbInterfaces] at hh
      split at hh
      · simp at hh
      simp only [Outcome.bind_eq_ok, Outcome.pure_eq, Outcome.ok.injEq] at hh
      obtain ⟨is', h1, rfl⟩ := hh
      cases k with
      | zero =>
        simp only [List.getElem?_cons_zero, Option.some.injEq] at hk
        subst hk
        exact ⟨d, ds, by simp, rfl, rfl, rfl, rfl, rfl⟩
      | succ k =>
        obtain ⟨d', ds', e1, e2, e3⟩ := ih h1 k (by simpa using hk)
        exact ⟨d', ds', by simpa using e1, by rw [e2]; congr 1; omega, e3⟩

/-- The string indices of interfaces are the host's. -/
theorem rusbInterfaces_string {h : Nat → Nat} {i : Nat} {ifs : List (List HostIfDesc)} {is : List Iface}
    (hh : rusbInterfaces h i ifs = .ok is) (k : Nat) (f : Iface) (hk : is[k]? = some f) :
    ∃ d ds, ifs[k]? = some (d :: ds) ∧ f.stringInterface = d.stringIndex.getD 0 := by
  induction ifs generalizing i is k with
  | nil => simp [rusbInterfaces] at hh; subst hh; simp at hk
  | cons alts rest ih =>
    cases alts with
    | nil => simp [rusbInterfaces] at hh
    | cons d ds =>
      simp only [rusbInterfaces, Outcome.bind_eq_ok, Outcome.pure_eq, Outcome.ok.injEq] at hh
      obtain ⟨is', h1, rfl⟩ := hh
      cases k with
      | zero =>
        simp only [List.getElem?_cons_zero, Option.some.injEq] at hk
        subst hk
        exact ⟨d, ds, by simp, rfl⟩
      | succ k =>
        obtain ⟨d', ds', e1, e2⟩ := ih h1 k (by simpa using hk)
        exact ⟨d', ds', by simpa using e1, e2⟩

theorem nusbInterfaces_string {n : NusbDev} {i : Nat} {ifs : List (List HostIfDesc)} {is : List Iface}
    (hh : nusbInterfaces n i ifs = .ok is) (k : Nat) (f : Iface) (hk : is[k]? = some f) :
    ∃ d ds, ifs[k]? = some (d :: ds) ∧ f.stringInterface = d.stringIndex.getD 0 := by
  induction ifs generalizing i is k with
  | nil => simp [nusbInterfaces] at hh; subst hh; simp at hk
  | cons alts rest ih =>
    cases alts with
    | nil => simp [nusbInterfaces] at hh
    | cons d ds =>
      simp only [nusbInterfaces] at hh
      split at hh
      · simp at hh
      simp only [Outcome.bind_eq_ok, Outcome.pure_eq, Outcome.ok.injEq] at hh
      obtain ⟨is', h1, rfl⟩ := hh
      cases k with
      | zero =>
        simp only [List.getElem?_cons_zero, Option.some.injEq] at hk
        subst hk
        exact ⟨d, ds, by simp, rfl⟩
      | succ k =>
        obtain ⟨d', ds', e1, e2⟩ := ih h1 k (by simpa using hk)
        exact ⟨d', ds', by simpa using e1, e2⟩

/-- All fields of a shared device but its strings. -/
theorem rusb_fields {p : Profile} {h : HostDev} {d : Device} (hd : rusbDevice p h = .ok (some d)) :
    ∃ desc cfg interfaces pool i1 i2 i3, h.desc = some desc ∧ h.cfg = some cfg ∧
      rusbInterfaces h.ifHandler 0 cfg.interfaces = .ok interfaces ∧
      d = { rusbBase h desc cfg interfaces with
            stringPool := pool, stringManufacturer := i1, stringProduct := i2, stringSerial := i3 } := by
  obtain ⟨desc, cfg, interfaces, i1, d1, i2, d2, i3, d3, e1, e2, e3, h1, h2, h3, rfl⟩ := rusbDevice_inv hd
  obtain ⟨_, rfl⟩ := rusbString_keeps h1
  obtain ⟨_, rfl⟩ := rusbString_keeps h2
  obtain ⟨P, rfl⟩ := rusbString_keeps h3
  exact ⟨desc, cfg, interfaces, P, i1, i2, i3, e1, e2, e3, rfl⟩

/-- Every interface has been claimed under its own number. -/
theorem nusbInterfaces_claims {n : NusbDev} {i : Nat} {ifs : List (List HostIfDesc)} {is : List Iface}
    (hh : nusbInterfaces n i ifs = .ok is) (k : Nat) (f : HostIfDesc) (fs : List HostIfDesc)
    (hk : ifs[k]? = some (f :: fs)) : is.length = ifs.length ∧ n.claimable f.number = true := by
  induction ifs generalizing i is k with
  | nil => simp at hk
  | cons alts rest ih =>
    cases alts with
    | nil => simp [nusbInterfaces] at hh
    | cons d ds =>
      simp only [nusbInterfaces] at hh
      split at hh
      · simp at hh
      rename_i hc
      simp only [Outcome.bind_eq_ok, Outcome.pure_eq, Outcome.ok.injEq] at hh
      obtain ⟨is', h1, rfl⟩ := hh
      have hl : is'.length = rest.length := by
        clear ih hk hc
        induction rest generalizing i is' with
        | nil => simp [nusbInterfaces] at h1; simp [h1]
        | cons a r ihr =>
          cases a with
          | nil => simp [nusbInterfaces] at h1
          | cons d' ds' =>
            simp only [nusbInterfaces] at h1
            split at h1
            · simp at h1
            simp only [Outcome.bind_eq_ok, Outcome.pure_eq, Outcome.ok.injEq] at h1
            obtain ⟨is'', h2, rfl⟩ := h1
            simp [ihr (i := i + 1) is'' h2]
      refine ⟨by simp [hl], ?_⟩
      cases k with
      | zero =>
        simp only [List.getElem?_cons_zero, Option.some.injEq, List.cons.injEq] at hk
        rw [← hk.1]
        simpa using hc
      | succ k => exact (ih h1 k (by simpa using hk)).2

theorem nusb_fields {p : Profile} {n : NusbDev} {d : Device} (hd : nusbDevice p n = .ok (some d)) :
    ∃ cfg speed interfaces pool i1 i2 i3, n.cfg = some cfg ∧ n.speed = some speed ∧
      nusbInterfaces n 0 cfg.interfaces = .ok interfaces ∧
      d = { nusbBase n cfg speed interfaces with
            stringPool := pool, stringManufacturer := i1, stringProduct := i2, stringSerial := i3 } := by
  obtain ⟨cfg, interfaces, speed, i1, d1, i2, d2, i3, d3, e1, e2, e3, h1, h2, h3, rfl⟩ := nusbDevice_inv hd
  obtain ⟨_, rfl⟩ := nusbString_keeps h1
  obtain ⟨_, rfl⟩ := nusbString_keeps h2
  obtain ⟨P, rfl⟩ := nusbString_keeps h3
  exact ⟨cfg, speed, interfaces, P, i1, i2, i3, e1, e2, e3, rfl⟩

/-- The bytes libusb's digits turn into. -/
theorem ofRusb_bytes (v : UInt16) :
    [(Version.ofRusb v).minor, (Version.ofRusb v).major] = le (keptVersion v.toNat) := by
  have hv := UInt16.toNat_lt v
  have e1 : (v >>> 4 &&& 0xF).toNat = v.toNat / 16 % 16 := by
    rw [UInt16.toNat_and, UInt16.toNat_shiftRight]
    have : ∀ n : Nat, n &&& 15 = n % 16 := fun n => Nat.and_two_pow_sub_one_eq_mod n 4
    simp [this, Nat.shiftRight_eq_div_pow]
  have e2 : (v >>> 8 &&& 0xF).toNat = v.toNat / 256 % 16 := by
    rw [UInt16.toNat_and, UInt16.toNat_shiftRight]
    have : ∀ n : Nat, n &&& 15 = n % 16 := fun n => Nat.and_two_pow_sub_one_eq_mod n 4
    simp [this, Nat.shiftRight_eq_div_pow]
  have e3 : (v >>> 12).toNat = v.toNat / 4096 := by
    rw [UInt16.toNat_shiftRight]
    simp [Nat.shiftRight_eq_div_pow]
  simp only [Version.ofRusb, Version.ofRusbVersion, RusbVersion.fromBcd, le, keptVersion, List.cons.injEq, and_true]
  constructor
  · apply u8_ext
    rw [UInt16.toNat_toUInt8, e1, UInt8.toNat_ofNat']
    omega
  · apply u8_ext
    rw [UInt16.toNat_toUInt8, UInt16.toNat_add, UInt16.toNat_mul, e2, e3, UInt8.toNat_ofNat']
    simp only [UInt16.toNat_ofNat]
    omega

theorem keptVersion_eq (v : UInt16) : keptVersion v.toNat = v.toNat ↔ v.toNat % 256 = 0 ∧ v.toNat < 4096 := by
  unfold keptVersion
  have := UInt16.toNat_lt v
  have e1 : v.toNat / 4096 = v.toNat / 256 / 16 := by omega
  have e2 : v.toNat / 16 % 16 = v.toNat % 256 / 16 := by omega
  rw [e1, e2]
  omega

end Usbip
