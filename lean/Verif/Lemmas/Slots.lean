import Verif.Spec.Slots
import Verif.Lemmas.Descriptor
/-! Helper lemmas about the string pool. -/

namespace Usbip
open Spec

theorem nodup_subset_length {α} [DecidableEq α] : ∀ (l m : List α), l.Nodup → l ⊆ m →
    l.length ≤ m.length
  | [], m, _, _ => by simp
  | a :: l, m, hn, hs => by
    have ha : a ∈ m := hs (by simp)
    have hn' := List.nodup_cons.mp hn
    have := nodup_subset_length l (m.erase a) hn'.2 (fun x hx => by
      have hxm : x ∈ m := hs (List.mem_cons_of_mem _ hx)
      have : x ≠ a := fun h => hn'.1 (h ▸ hx)
      exact (List.mem_erase_of_ne this).mpr hxm)
    rw [List.length_erase_of_mem ha] at this
    have := List.length_pos_of_mem ha
    simp; omega

theorem u8_succ (i : UInt8) (h : i.toNat < 255) : (i + 1).toNat = i.toNat + 1 := by
  rw [UInt8.toNat_add]; simp; omega

theorem ne_255 (i : UInt8) (h : i.toNat < 255) : (i == 255) = false := by
  rw [beq_eq_false_iff_ne]
  rintro rfl
  simp at h

/-- Skipping taken indices. -/
theorem scan_skip (p : Profile) (pool : UInt8 → Option Str) (n : Nat) : ∀ (fuel : Nat) (i : UInt8),
    i.toNat + n ≤ 255 → (∀ j : UInt8, i.toNat ≤ j.toNat → j.toNat < i.toNat + n → (pool j).isSome) →
    newStringScan p pool (fuel + n) i = newStringScan p pool fuel (UInt8.ofNat (i.toNat + n)) := by
  induction n with
  | zero =>
    intro fuel i _ _
    congr 1
    apply u8_ext; simp
  | succ n ih =>
    intro fuel i hi ht
    rw [show fuel + (n + 1) = (fuel + n) + 1 by omega, newStringScan]
    have h1 := ht i (by omega) (by omega)
    rw [ne_255 i (by omega), Bool.and_false, if_neg (by simp), if_neg (by
      cases h : pool i <;> simp_all), ih fuel (i + 1) (by rw [u8_succ i (by omega)]; omega)
      (fun j ha hb => ht j (by rw [u8_succ i (by omega)] at ha; omega)
        (by rw [u8_succ i (by omega)] at hb; omega)), u8_succ i (by omega)]
    congr 2; omega

theorem scan_found (p : Profile) (pool : UInt8 → Option Str) (i : UInt8) (h1 : 1 ≤ i.toNat)
    (h2 : i.toNat ≤ 254) (hf : pool i = none)
    (ht : ∀ j : UInt8, 1 ≤ j.toNat → j.toNat < i.toNat → (pool j).isSome) :
    newStringScan p pool 256 1 = .ok i := by
  have e1 : (1 : UInt8).toNat = 1 := rfl
  rw [show 256 = (256 - i.toNat) + 1 + (i.toNat - 1) by omega,
    scan_skip p pool (i.toNat - 1) _ 1 (by rw [e1]; omega)
      (fun j ha hb => ht j (by rw [e1] at ha; exact ha) (by rw [e1] at hb; omega))]
  have : UInt8.ofNat ((1 : UInt8).toNat + (i.toNat - 1)) = i := by
    apply u8_ext
    rw [e1, UInt8.toNat_ofNat']
    omega
  rw [this, newStringScan, ne_255 i (by omega), Bool.and_false, if_neg (by simp), if_pos (by
    rw [hf]; rfl)]

theorem scan_past (p : Profile) (pool : UInt8 → Option Str)
    (ht : ∀ j : UInt8, 1 ≤ j.toNat → j.toNat ≤ 254 → (pool j).isSome) :
    newStringScan p pool 256 1 = newStringScan p pool 2 255 := by
  have e1 : (1 : UInt8).toNat = 1 := rfl
  rw [show 256 = 2 + 254 from rfl, scan_skip p pool 254 2 1 (by rw [e1]; omega)
    (fun j ha hb => ht j (by rw [e1] at ha; exact ha) (by rw [e1] at hb; omega))]
  rfl

/-- The smallest free index, if there is a free one in 1..254. -/
theorem exists_least (pool : UInt8 → Option Str) (i : UInt8) (h1 : 1 ≤ i.toNat)
    (h2 : i.toNat ≤ 254) (hf : pool i = none) :
    ∃ m : UInt8, 1 ≤ m.toNat ∧ m.toNat ≤ 254 ∧ pool m = none ∧
      ∀ j : UInt8, 1 ≤ j.toNat → j.toNat < m.toNat → (pool j).isSome := by
  suffices H : ∀ n, ∀ i : UInt8, i.toNat = n → 1 ≤ i.toNat → i.toNat ≤ 254 → pool i = none →
      ∃ m : UInt8, 1 ≤ m.toNat ∧ m.toNat ≤ 254 ∧ pool m = none ∧
        ∀ j : UInt8, 1 ≤ j.toNat → j.toNat < m.toNat → (pool j).isSome from H _ i rfl h1 h2 hf
  intro n
  induction n using Nat.strongRecOn with
  | _ n ih =>
    intro i hi h1 h2 hf
    by_cases hall : ∀ j : UInt8, 1 ≤ j.toNat → j.toNat < i.toNat → (pool j).isSome
    · exact ⟨i, h1, h2, hf, hall⟩
    · obtain ⟨j, hj⟩ := Classical.not_forall.mp hall
      simp only [Classical.not_imp] at hj
      obtain ⟨ha, hb, hc⟩ := hj
      exact ih j.toNat (by omega) j rfl ha (by omega) (by
        cases h : pool j <;> simp_all)

theorem scan_free (p : Profile) (pool : UInt8 → Option Str) (i : UInt8) (h1 : 1 ≤ i.toNat)
    (h2 : i.toNat ≤ 254) (hf : pool i = none) :
    ∃ m : UInt8, newStringScan p pool 256 1 = .ok m ∧ m ≠ 0 ∧ pool m = none := by
  obtain ⟨m, a, b, c, e⟩ := exists_least pool i h1 h2 hf
  refine ⟨m, scan_found p pool m a b c e, ?_, c⟩
  rintro rfl
  simp at a

/-! ### The invariant -/

/-- Indices and names agree with the pool. -/
structure PoolInv (pool : UInt8 → Option Str) (v : List (UInt8 × Option Str)) : Prop where
  unset : ∀ e ∈ v, e.2 = none → e.1 = 0
  set : ∀ e ∈ v, ∀ s, e.2 = some s → e.1 ≠ 0 ∧ pool e.1 = some s
  own : v.Pairwise (fun a b => a.1 ≠ 0 → a.1 ≠ b.1)
  dom : ∀ i s, pool i = some s → i ≠ 0 ∧ i ∈ v.map Prod.fst

theorem PoolInv.free {pool v} (h : PoolInv pool v) (hc : ((v.map Prod.snd).filter Option.isSome).length ≤ 253) :
    ∃ i : UInt8, 1 ≤ i.toNat ∧ i.toNat ≤ 254 ∧ pool i = none := by
  apply Classical.byContradiction
  intro hno
  have hall : ∀ i : UInt8, 1 ≤ i.toNat → i.toNat ≤ 254 → ∃ s, pool i = some s := by
    intro i h1 h2
    cases hp : pool i with
    | none => exact absurd ⟨i, h1, h2, hp⟩ hno
    | some s => exact ⟨s, rfl⟩
  have hsub : (List.range' 1 254) ⊆ ((v.filter (fun e => e.2.isSome)).map (fun e => e.1.toNat)) := by
    intro k hk
    rw [List.mem_range'_1] at hk
    have e : (UInt8.ofNat k).toNat = k := by rw [UInt8.toNat_ofNat']; omega
    obtain ⟨s, hs⟩ := hall (UInt8.ofNat k) (by omega) (by omega)
    obtain ⟨h0, hm⟩ := h.dom _ _ hs
    obtain ⟨x, hx, hxe⟩ := List.mem_map.mp hm
    refine List.mem_map.mpr ⟨x, List.mem_filter.mpr ⟨hx, ?_⟩, by rw [hxe]; exact e⟩
    cases hn : x.2 with
    | none => exact absurd (hxe ▸ h.unset x hx hn) h0
    | some _ => rfl
  have hlen := nodup_subset_length _ _ List.nodup_range' hsub
  rw [List.length_range', List.length_map] at hlen
  rw [List.filter_map, List.length_map] at hc
  have : (v.filter (fun e => e.2.isSome)).length = (v.filter (Option.isSome ∘ Prod.snd)).length := rfl
  omega

/-- Clearing one slot. -/
theorem PoolInv.clear {pool A B idx old} (h : PoolInv pool (A ++ (idx, old) :: B)) :
    (takeOld pool idx).1 = old ∧ PoolInv (takeOld pool idx).2 (A ++ (0, none) :: B) := by
  have hmem : (idx, old) ∈ A ++ (idx, old) :: B := by simp
  have hsub : ∀ e, e ∈ A ++ (0, none) :: B → e = ((0, none) : UInt8 × Option Str) ∨
      (e ∈ A ++ (idx, old) :: B ∧ (e ∈ A ∨ e ∈ B)) := by
    intro e he
    rw [List.mem_append, List.mem_cons] at he
    rcases he with he | rfl | he
    · exact Or.inr ⟨by simp [he], Or.inl he⟩
    · exact Or.inl rfl
    · exact Or.inr ⟨by simp [he], Or.inr he⟩
  have hown := h.own
  rw [List.pairwise_append, List.pairwise_cons] at hown
  obtain ⟨hA, ⟨hx, hB⟩, hAB⟩ := hown
  have hne : idx ≠ 0 → ∀ e, e ∈ A ∨ e ∈ B → e.1 ≠ idx := by
    intro h0 e he
    rcases he with he | he
    · intro hc
      exact hAB e he (idx, old) (by simp) (by rw [hc]; exact h0) hc
    · intro hc
      exact hx e he h0 hc.symm
  have hpw : (A ++ ((0, none) : UInt8 × Option Str) :: B).Pairwise (fun a b => a.1 ≠ 0 → a.1 ≠ b.1) := by
    rw [List.pairwise_append, List.pairwise_cons]
    refine ⟨hA, ⟨fun e _ h => absurd rfl h, hB⟩, ?_⟩
    intro a ha b hb
    rcases List.mem_cons.mp hb with rfl | hb
    · intro h0; exact h0
    · exact hAB a ha b (List.mem_cons_of_mem _ hb)
  unfold takeOld
  by_cases h0 : idx = 0
  · subst h0
    rw [if_neg (by simp)]
    have hold : old = none := by
      cases old with
      | none => rfl
      | some s => exact absurd rfl (h.set _ hmem s rfl).1
    subst hold
    exact ⟨rfl, h⟩
  · rw [if_pos h0]
    obtain ⟨s, rfl⟩ : ∃ s, old = some s := by
      cases old with
      | none => exact absurd (h.unset _ hmem rfl) h0
      | some s => exact ⟨s, rfl⟩
    refine ⟨(h.set _ hmem s rfl).2, ?_, ?_, hpw, ?_⟩
    · intro e he hn
      rcases hsub e he with rfl | ⟨hm, _⟩
      · rfl
      · exact h.unset e hm hn
    · intro e he t ht
      rcases hsub e he with rfl | ⟨hm, hab⟩
      · simp at ht
      · obtain ⟨h1, h2⟩ := h.set e hm t ht
        refine ⟨h1, ?_⟩
        simp only [poolRemove]
        rw [if_neg (hne h0 e hab)]
        exact h2
    · intro i t hi
      simp only [poolRemove] at hi
      split at hi
      · simp at hi
      · rename_i hne'
        obtain ⟨h1, h2⟩ := h.dom i t hi
        refine ⟨h1, ?_⟩
        simp only [List.map_append, List.map_cons, List.mem_append, List.mem_cons] at h2 ⊢
        rcases h2 with h2 | h2 | h2
        · exact Or.inl h2
        · exact absurd h2 hne'
        · exact Or.inr (Or.inr h2)

/-- Filling an empty slot with a fresh index. -/
theorem PoolInv.fill {pool A B i} (s : Str) (h : PoolInv pool (A ++ (0, none) :: B)) (h0 : i ≠ 0)
    (hf : pool i = none) : PoolInv (poolInsert pool i s) (A ++ (i, some s) :: B) := by
  have hown := h.own
  rw [List.pairwise_append, List.pairwise_cons] at hown
  obtain ⟨hA, ⟨_, hB⟩, hAB⟩ := hown
  have hne : ∀ e, e ∈ A ∨ e ∈ B → e.1 ≠ i := by
    intro e he hc
    have hm : e ∈ A ++ (0, none) :: B := by
      rcases he with he | he <;> simp [he]
    cases hn : e.2 with
    | none => exact h0 (hc ▸ h.unset e hm hn)
    | some t =>
      have := (h.set e hm t hn).2
      rw [hc, hf] at this
      simp at this
  have hsub : ∀ e, e ∈ A ++ (i, some s) :: B → e = (i, some s) ∨
      (e ∈ A ++ (0, none) :: B ∧ (e ∈ A ∨ e ∈ B)) := by
    intro e he
    rw [List.mem_append, List.mem_cons] at he
    rcases he with he | rfl | he
    · exact Or.inr ⟨by simp [he], Or.inl he⟩
    · exact Or.inl rfl
    · exact Or.inr ⟨by simp [he], Or.inr he⟩
  refine ⟨?_, ?_, ?_, ?_⟩
  · intro e he hn
    rcases hsub e he with rfl | ⟨hm, _⟩
    · simp at hn
    · exact h.unset e hm hn
  · intro e he t ht
    rcases hsub e he with rfl | ⟨hm, hab⟩
    · simp only [Option.some.injEq] at ht
      subst ht
      exact ⟨h0, by simp [poolInsert]⟩
    · obtain ⟨h1, h2⟩ := h.set e hm t ht
      refine ⟨h1, ?_⟩
      simp only [poolInsert]
      rw [if_neg (hne e hab)]
      exact h2
  · rw [List.pairwise_append, List.pairwise_cons]
    refine ⟨hA, ⟨fun e he _ => (hne e (Or.inr he)).symm, hB⟩, ?_⟩
    intro a ha b hb
    rcases List.mem_cons.mp hb with rfl | hb
    · intro _; exact hne a (Or.inl ha)
    · exact hAB a ha b (List.mem_cons_of_mem _ hb)
  · intro j t hj
    simp only [poolInsert] at hj
    split at hj
    · rename_i hji
      subst hji
      exact ⟨h0, by simp⟩
    · obtain ⟨h1, h2⟩ := h.dom j t hj
      refine ⟨h1, ?_⟩
      simp only [List.map_append, List.map_cons, List.mem_append, List.mem_cons] at h2 ⊢
      rcases h2 with h2 | h2 | h2
      · exact Or.inl h2
      · exact absurd h2 h1
      · exact Or.inr (Or.inr h2)

/-- Adding an unnamed slot at the end. -/
theorem PoolInv.extend {pool v} (h : PoolInv pool v) : PoolInv pool (v ++ [(0, none)]) := by
  refine ⟨?_, ?_, ?_, ?_⟩
  · intro e he hn
    rcases List.mem_append.mp he with he | he
    · exact h.unset e he hn
    · simp only [List.mem_singleton] at he; subst he; rfl
  · intro e he s hs
    rcases List.mem_append.mp he with he | he
    · exact h.set e he s hs
    · simp only [List.mem_singleton] at he; subst he; simp at hs
  · rw [List.pairwise_append]
    refine ⟨h.own, by simp, ?_⟩
    intro a _ b hb h0
    simp only [List.mem_singleton] at hb; subst hb; exact h0
  · intro i s hi
    obtain ⟨h1, h2⟩ := h.dom i s hi
    exact ⟨h1, by simp [h2]⟩

/-- `newString` into an empty slot of a device with room. -/
theorem newString_ok (p : Profile) (d : Device) (s : Str) {v}
    (h : PoolInv d.stringPool v) (hc : ((v.map Prod.snd).filter Option.isSome).length ≤ 253) :
    ∃ i, d.newString p s = .ok (i, { d with stringPool := poolInsert d.stringPool i s }) ∧
      i ≠ 0 ∧ d.stringPool i = none := by
  obtain ⟨k, h1, h2, h3⟩ := h.free hc
  obtain ⟨m, hm, h0, hf⟩ := scan_free p d.stringPool k h1 h2 h3
  refine ⟨m, ?_, h0, hf⟩
  unfold Device.newString
  rw [hm]; rfl

/-- The refinement relation between devices and names. -/
def Repr (d : Device) (n : Names) : Prop :=
  d.interfaces.length = n.interfaces.length ∧ PoolInv d.stringPool (d.nameIndices.zip n.all)

theorem zip_all (d : Device) (n : Names) : d.nameIndices.zip n.all =
    (d.stringConfiguration, n.slots .configuration) :: (d.stringManufacturer, n.slots .manufacturer)
    :: (d.stringProduct, n.slots .product) :: (d.stringSerial, n.slots .serial)
    :: (d.interfaces.map Iface.stringInterface).zip n.interfaces := rfl

theorem snd_zip_all (d : Device) (n : Names) (h : d.interfaces.length = n.interfaces.length) :
    (d.nameIndices.zip n.all).map Prod.snd = n.all := by
  rw [List.map_snd_zip]
  simp [Names.all, Device.nameIndices]; omega

/-- The common shape of the setters. -/
theorem set_slot (p : Profile) (d : Device) (name : Str) {A B : List (UInt8 × Option Str)} {idx old}
    (h : PoolInv d.stringPool (A ++ (idx, old) :: B))
    (hc : (((A ++ (0, some name) :: B).map Prod.snd).filter Option.isSome).length ≤ 254) :
    ∃ i, Device.newString p { d with stringPool := (takeOld d.stringPool idx).2 } name
        = .ok (i, { d with stringPool := poolInsert (takeOld d.stringPool idx).2 i name }) ∧
      (takeOld d.stringPool idx).1 = old ∧
      PoolInv (poolInsert (takeOld d.stringPool idx).2 i name) (A ++ (i, some name) :: B) := by
  obtain ⟨h1, h2⟩ := h.clear
  obtain ⟨i, hi, h0, hf⟩ := newString_ok p { d with stringPool := (takeOld d.stringPool idx).2 } name
    h2 (by
      simp only [List.map_append, List.map_cons, List.filter_append, List.length_append] at hc ⊢
      rw [List.filter_cons_of_neg (by simp)]
      rw [List.filter_cons_of_pos (by simp)] at hc
      simp at hc ⊢; omega)
  exact ⟨i, hi, h1, h2.fill name h0 hf⟩

theorem repr_new (p : Profile) (index : UInt32) :
    ∃ d, Device.new p index = .ok d ∧ Repr d Names.initial := by
  let d0 : Device := { Device.default with
      path := ascii "/sys/bus/0/0/0"
      busId := ascii "0-0-0"
      devNum := index
      speed := usbSpeedHigh
      ep0In := { address := 0x80, attributes := EndpointAttributes.control.toU8
                 maxPacketSize := ep0MaxPacketSize, interval := 0 }
      ep0Out := { address := 0x00, attributes := EndpointAttributes.control.toU8
                  maxPacketSize := ep0MaxPacketSize, interval := 0 }
      configurationValue := 1
      numConfigurations := 1 }
  have z0 : PoolInv d0.stringPool [(0, none), (0, none), (0, none), (0, none)] := by
    refine ⟨?_, ?_, ?_, ?_⟩
    · intro e he _; simp at he; simp [he]
    · intro e he s hs; simp at he; simp [he] at hs
    · simp
    · intro i s hi; simp [d0, Device.default] at hi
  obtain ⟨i1, e1, n1, f1⟩ := newString_ok p d0 "Default Configuration".toList z0 (by decide)
  have z1 := PoolInv.fill (A := []) "Default Configuration".toList z0 n1 f1
  obtain ⟨i2, e2, n2, f2⟩ := newString_ok p { d0 with
      stringPool := poolInsert d0.stringPool i1 "Default Configuration".toList
      stringConfiguration := i1 } "Manufacturer".toList z1 (by simp)
  have z2 := PoolInv.fill (A := [_]) "Manufacturer".toList z1 n2 f2
  obtain ⟨i3, e3, n3, f3⟩ := newString_ok p { d0 with
      stringPool := poolInsert (poolInsert d0.stringPool i1 "Default Configuration".toList)
        i2 "Manufacturer".toList
      stringConfiguration := i1
      stringManufacturer := i2 } "Product".toList z2 (by simp)
  have z3 := PoolInv.fill (A := [_, _]) "Product".toList z2 n3 f3
  obtain ⟨i4, e4, n4, f4⟩ := newString_ok p { d0 with
      stringPool := poolInsert (poolInsert (poolInsert d0.stringPool i1
        "Default Configuration".toList) i2 "Manufacturer".toList) i3 "Product".toList
      stringConfiguration := i1
      stringManufacturer := i2
      stringProduct := i3 } "Serial".toList z3 (by simp)
  have z4 := PoolInv.fill (A := [_, _, _]) "Serial".toList z3 n4 f4
  refine ⟨{ d0 with
      stringPool := poolInsert (poolInsert (poolInsert (poolInsert d0.stringPool i1
        "Default Configuration".toList) i2 "Manufacturer".toList) i3 "Product".toList) i4
        "Serial".toList
      stringConfiguration := i1
      stringManufacturer := i2
      stringProduct := i3
      stringSerial := i4 }, ?_, rfl, z4⟩
  unfold Device.new
  show (d0.newString p "Default Configuration".toList >>= _) = _
  rw [e1]
  simp only [Outcome.bind_ok]
  rw [e2]
  simp only [Outcome.bind_ok]
  rw [e3]
  simp only [Outcome.bind_ok]
  rw [e4]
  rfl

theorem repr_step (p : Profile) (d : Device) (n : Names) (c : NameCall) (h : Repr d n)
    (hc : (n.step c).2.count ≤ 254) :
    ∃ d', d.call p c = .ok ((n.step c).1, d') ∧ Repr d' (n.step c).2 := by
  obtain ⟨hl, hv⟩ := h
  rw [zip_all] at hv
  have hz : ((d.interfaces.map Iface.stringInterface).zip n.interfaces).map Prod.snd = n.interfaces := by
    rw [List.map_snd_zip]; simp; omega
  cases c with
  | withDeviceHandler k => exact ⟨_, rfl, hl, hv⟩
  | unset s =>
    cases s
    · obtain ⟨h1, h2⟩ := PoolInv.clear (A := []) hv
      exact ⟨d.unsetConfigurationName.2, by
        simp only [Names.step, ← h1]; rfl, hl, h2⟩
    · obtain ⟨h1, h2⟩ := PoolInv.clear (A := [_]) hv
      exact ⟨d.unsetManufacturerName.2, by
        simp only [Names.step, ← h1]; rfl, hl, h2⟩
    · obtain ⟨h1, h2⟩ := PoolInv.clear (A := [_, _]) hv
      exact ⟨d.unsetProductName.2, by
        simp only [Names.step, ← h1]; rfl, hl, h2⟩
    · obtain ⟨h1, h2⟩ := PoolInv.clear (A := [_, _, _]) hv
      exact ⟨d.unsetSerialNumber.2, by
        simp only [Names.step, ← h1]; rfl, hl, h2⟩
  | set s name =>
    cases s
    · obtain ⟨i, hi, h1, h2⟩ := set_slot (A := []) p d name hv (by
        simp only [List.nil_append, List.map_cons, hz]; exact hc)
      refine ⟨{ d with stringPool := poolInsert (takeOld d.stringPool d.stringConfiguration).2 i name
                       stringConfiguration := i }, ?_, hl, h2⟩
      simp only [Device.call, Device.setConfigurationName]
      rw [hi]
      simp only [Outcome.bind_ok, h1]
      rfl
    · obtain ⟨i, hi, h1, h2⟩ := set_slot (A := [_]) p d name hv (by
        simp only [List.cons_append, List.nil_append, List.map_cons, hz]; exact hc)
      refine ⟨{ d with stringPool := poolInsert (takeOld d.stringPool d.stringManufacturer).2 i name
                       stringManufacturer := i }, ?_, hl, h2⟩
      simp only [Device.call, Device.setManufacturerName]
      rw [hi]
      simp only [Outcome.bind_ok, h1]
      rfl
    · obtain ⟨i, hi, h1, h2⟩ := set_slot (A := [_, _]) p d name hv (by
        simp only [List.cons_append, List.nil_append, List.map_cons, hz]; exact hc)
      refine ⟨{ d with stringPool := poolInsert (takeOld d.stringPool d.stringProduct).2 i name
                       stringProduct := i }, ?_, hl, h2⟩
      simp only [Device.call, Device.setProductName]
      rw [hi]
      simp only [Outcome.bind_ok, h1]
      rfl
    · obtain ⟨i, hi, h1, h2⟩ := set_slot (A := [_, _, _]) p d name hv (by
        simp only [List.cons_append, List.nil_append, List.map_cons, hz]; exact hc)
      refine ⟨{ d with stringPool := poolInsert (takeOld d.stringPool d.stringSerial).2 i name
                       stringSerial := i }, ?_, hl, h2⟩
      simp only [Device.call, Device.setSerialNumber]
      rw [hi]
      simp only [Outcome.bind_ok, h1]
      rfl
  | withInterface cls sub proto name es hd cs =>
    have hext := hv.extend
    have hzip : ∀ (si : UInt8) (l : List Iface), l.map Iface.stringInterface =
        d.interfaces.map Iface.stringInterface ++ [si] →
        (l.map Iface.stringInterface).zip (n.interfaces ++ [name]) =
        (d.interfaces.map Iface.stringInterface).zip n.interfaces ++ [(si, name)] := by
      intro si l h
      rw [h, List.zip_append (by simp; omega)]
      rfl
    cases name with
    | none =>
      refine ⟨{ d with interfaces := d.interfaces ++ [
        { interfaceClass := cls, interfaceSubclass := sub, interfaceProtocol := proto
          endpoints := es, stringInterface := 0
          classSpecificDescriptor := cs, handler := hd }] }, rfl, by simp [Names.step, hl], ?_⟩
      rw [zip_all]
      simp only [Names.step]
      rw [hzip 0 _ (by simp)]
      exact hext
    | some name =>
      have hcount : ((((d.stringConfiguration, n.slots .configuration)
          :: (d.stringManufacturer, n.slots .manufacturer)
          :: (d.stringProduct, n.slots .product) :: (d.stringSerial, n.slots .serial)
          :: (d.interfaces.map Iface.stringInterface).zip n.interfaces).map
            Prod.snd).filter Option.isSome).length ≤ 253 := by
        simp only [List.map_cons, hz]
        simp only [Names.count, Names.step, Names.all] at hc
        rw [← List.append_assoc, List.filter_append, List.length_append] at hc
        simp only [List.cons_append, List.nil_append] at hc
        simp at hc
        exact hc
      obtain ⟨i, hi, h0, hf⟩ := newString_ok p d name hv hcount
      have hfill := PoolInv.fill (A := _ :: _ :: _ :: _ :: _) (B := []) name hext h0 hf
      refine ⟨{ d with
        stringPool := poolInsert d.stringPool i name
        interfaces := d.interfaces ++ [
        { interfaceClass := cls, interfaceSubclass := sub, interfaceProtocol := proto
          endpoints := es, stringInterface := i
          classSpecificDescriptor := cs, handler := hd }] }, ?_, by simp [Names.step, hl], ?_⟩
      · simp only [Device.call, Device.withInterface]
        rw [hi]
        rfl
      · rw [zip_all]
        simp only [Names.step]
        rw [hzip i _ (by simp)]
        exact hfill

end Usbip
