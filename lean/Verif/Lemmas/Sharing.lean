import Verif.Lemmas.Host
import Verif.Lemmas.HostDesc
import Verif.Spec.Sharing
/-! Helper lemmas about which host devices are shared. -/

namespace Usbip
open Spec

/-! ### Strings -/

/-- All taken indices are in a list of `k`. -/
def Few (k : Nat) (pool : UInt8 → Option Str) : Prop :=
  ∃ l : List UInt8, l.length ≤ k ∧ ∀ i, pool i ≠ none → i ∈ l

theorem Few.newString {k : Nat} {d : Device} (h : Few k d.stringPool) (hk : k < 3) (p : Profile) (s : Str) :
    ∃ i d', d.newString p s = .ok (i, d') ∧ Few (k + 1) d'.stringPool ∧ ∃ P, d' = { d with stringPool := P } := by
  obtain ⟨l, hl, hm⟩ := h
  have hfree : ∃ i : UInt8, 1 ≤ i.toNat ∧ i.toNat ≤ 254 ∧ d.stringPool i = none := by
    apply Classical.byContradiction
    intro hn
    have hs : [(1 : UInt8), 2, 3] ⊆ l := by
      intro i hi
      refine hm i (fun h0 => hn ⟨i, ?_, ?_, h0⟩) <;>
      · simp only [List.mem_cons, List.not_mem_nil, or_false] at hi
        rcases hi with rfl | rfl | rfl <;> decide
    have := nodup_subset_length _ _ (by decide) hs
    simp only [List.length_cons, List.length_nil] at this
    omega
  obtain ⟨i, h1, h2, h3⟩ := hfree
  obtain ⟨m, hm1, _, _⟩ := scan_free p d.stringPool i h1 h2 h3
  refine ⟨m, _, by rw [Device.newString, hm1]; rfl, ⟨m :: l, by simp; omega, ?_⟩, _, rfl⟩
  intro j hj
  simp only [poolInsert] at hj
  split at hj
  · rename_i e; subst e; exact List.mem_cons_self ..
  · exact List.mem_cons_of_mem _ (hm j hj)

theorem Few.mono {k : Nat} {P} (h : Few k P) : Few (k + 1) P := by
  obtain ⟨l, h1, h2⟩ := h
  exact ⟨l, by omega, h2⟩

theorem Few.rusb {k : Nat} {d : Device} (h : Few k d.stringPool) (hk : k < 3) (p : Profile)
    (read : UInt8 → Option Str) (idx : Option UInt8) :
    ((∃ i, idx = some i ∧ read i = none) ∧ rusbString p read idx d = .panic) ∨
    ((∀ i, idx = some i → read i ≠ none) ∧ ∃ i d', rusbString p read idx d = .ok (i, d') ∧
      Few (k + 1) d'.stringPool ∧ ∃ P, d' = { d with stringPool := P }) := by
  cases idx with
  | none => exact Or.inr ⟨by simp, 0, d, rfl, h.mono, d.stringPool, rfl⟩
  | some i =>
    cases hr : read i with
    | none => exact Or.inl ⟨⟨i, rfl, hr⟩, by simp [rusbString, hr]⟩
    | some s =>
      obtain ⟨j, d', h1, h2⟩ := h.newString hk p s
      exact Or.inr ⟨by rintro _ ⟨⟩; simp [hr], j, d', by simp [rusbString, hr, h1], h2⟩

theorem Few.nusb {k : Nat} {d : Device} (h : Few k d.stringPool) (hk : k < 3) (p : Profile) (o : Option Str) :
    ∃ i d', nusbString p o d = .ok (i, d') ∧ Few (k + 1) d'.stringPool ∧ ∃ P, d' = { d with stringPool := P } := by
  cases o with
  | none => exact ⟨0, d, rfl, h.mono, d.stringPool, rfl⟩
  | some s => exact h.newString hk p s

/-! ### Interfaces -/

theorem rusbInterfaces_total (h : Nat → Nat) (ifs : List (List HostIfDesc)) : ∀ i,
    ([] ∈ ifs ∧ rusbInterfaces h i ifs = .panic) ∨ ([] ∉ ifs ∧ ∃ is, rusbInterfaces h i ifs = .ok is) := by
  induction ifs with
  | nil => intro i; exact Or.inr ⟨by simp, [], rfl⟩
  | cons alts rest ih =>
    intro i
    cases alts with
    | nil => exact Or.inl ⟨by simp, rfl⟩
    | cons d ds =>
      rcases ih (i + 1) with ⟨h1, h2⟩ | ⟨h1, is, h2⟩
      · exact Or.inl ⟨List.mem_cons_of_mem _ h1, by simp [rusbInterfaces, h2]⟩
      · exact Or.inr ⟨by simpa using h1, by simp [rusbInterfaces, h2]⟩

theorem nusbInterfaces_total (n : NusbDev) (ifs : List (List HostIfDesc)) : ∀ i,
    (([] ∈ ifs ∨ ∃ f rest, f :: rest ∈ ifs ∧ n.claimable f.number = false) ∧ nusbInterfaces n i ifs = .panic) ∨
    (¬([] ∈ ifs ∨ ∃ f rest, f :: rest ∈ ifs ∧ n.claimable f.number = false) ∧
      ∃ is, nusbInterfaces n i ifs = .ok is) := by
  induction ifs with
  | nil => intro i; exact Or.inr ⟨by simp, [], rfl⟩
  | cons alts rest ih =>
    intro i
    cases alts with
    | nil => exact Or.inl ⟨by simp, rfl⟩
    | cons d ds =>
      cases hc : n.claimable d.number with
      | false => exact Or.inl ⟨Or.inr ⟨d, ds, by simp, hc⟩, by simp [nusbInterfaces, hc]⟩
      | true =>
        rcases ih (i + 1) with ⟨h1, h2⟩ | ⟨h1, is, h2⟩
        · refine Or.inl ⟨?_, by simp [nusbInterfaces, hc, h2]⟩
          rcases h1 with h1 | ⟨f, r, h1, h3⟩
          · exact Or.inl (List.mem_cons_of_mem _ h1)
          · exact Or.inr ⟨f, r, List.mem_cons_of_mem _ h1, h3⟩
        · refine Or.inr ⟨?_, by simp [nusbInterfaces, hc, h2]⟩
          rintro (h3 | ⟨f, r, h3, h4⟩)
          · exact h1 (Or.inl (by simpa using h3))
          · rcases List.mem_cons.mp h3 with h3 | h3
            · simp only [List.cons.injEq] at h3
              rw [h3.1, hc] at h4
              simp at h4
            · exact h1 (Or.inr ⟨f, r, h3, h4⟩)

/-! ### One device -/

theorem rusbDevice_chain {p : Profile} {h : HostDev} {desc cfg is} (hd : h.desc = some desc) (hc : h.cfg = some cfg)
    (hi : rusbInterfaces h.ifHandler 0 cfg.interfaces = .ok is) :
    rusbDevice p h = (rusbString p h.stringAscii desc.manufacturerIndex (rusbBase h desc cfg is) >>= fun r1 =>
      rusbString p h.stringAscii desc.productIndex { r1.2 with stringManufacturer := r1.1 } >>= fun r2 =>
      rusbString p h.stringAscii desc.serialIndex { r2.2 with stringProduct := r2.1 } >>= fun r3 =>
      .ok (some { r3.2 with stringSerial := r3.1 })) := by
  unfold rusbDevice
  simp only [hd, hc]
  rw [hi]
  rfl

theorem nusbDevice_chain {p : Profile} {n : NusbDev} {cfg sp is} (ho : n.opened = true) (hc : n.cfg = some cfg)
    (hs : n.speed = some sp) (hi : nusbInterfaces n 0 cfg.interfaces = .ok is) :
    nusbDevice p n = (nusbString p n.manufacturer (nusbBase n cfg sp is) >>= fun r1 =>
      nusbString p n.product { r1.2 with stringManufacturer := r1.1 } >>= fun r2 =>
      nusbString p n.serial { r2.2 with stringProduct := r2.1 } >>= fun r3 =>
      .ok (some { r3.2 with stringSerial := r3.1 })) := by
  unfold nusbDevice
  simp only [ho, hc]
  rw [hi]
  simp only [hs]
  rfl

/-- Setting up a libusb device: skipped, a panic, or a device. -/
theorem rusbDevice_total (p : Profile) (h : HostDev) :
    ((h.desc = none ∨ h.cfg = none) ∧ rusbDevice p h = .ok none) ∨
    (Defective h ∧ rusbDevice p h = .panic) ∨
    (¬ Defective h ∧ (h.desc ≠ none ∧ h.cfg ≠ none) ∧ ∃ d, rusbDevice p h = .ok (some d)) := by
  cases hd : h.desc with
  | none => exact Or.inl ⟨Or.inl rfl, by simp [rusbDevice, hd]⟩
  | some desc =>
    cases hc : h.cfg with
    | none => exact Or.inl ⟨Or.inr rfl, by simp [rusbDevice, hd, hc]⟩
    | some cfg =>
      right
      have hdef : Defective h ↔ [] ∈ cfg.interfaces ∨ ∃ i, (desc.manufacturerIndex = some i ∨ desc.productIndex = some i ∨
          desc.serialIndex = some i) ∧ h.stringAscii i = none := by
        constructor
        · rintro ⟨desc', cfg', e1, e2, h3⟩
          rw [hd] at e1
          rw [hc] at e2
          simp only [Option.some.injEq] at e1 e2
          subst e1 e2
          exact h3
        · exact fun h3 => ⟨desc, cfg, hd, hc, h3⟩
      rw [hdef]
      rcases rusbInterfaces_total h.ifHandler cfg.interfaces 0 with ⟨h1, h2⟩ | ⟨h1, is, h2⟩
      · exact Or.inl ⟨Or.inl h1, by simp only [rusbDevice, hd, hc]; rw [h2]; rfl⟩
      · rw [rusbDevice_chain hd hc h2]
        have f0 : Few 0 (rusbBase h desc cfg is).stringPool := ⟨[], by simp, fun i hi => absurd rfl hi⟩
        rcases f0.rusb (by omega) p h.stringAscii desc.manufacturerIndex with ⟨⟨i, a1, a2⟩, a3⟩ | ⟨a1, i1, d1, a2, f1, P1, e1⟩
        · refine Or.inl ⟨Or.inr ⟨i, Or.inl a1, a2⟩, ?_⟩
          rw [a3]; rfl
        rw [a2, Outcome.bind_ok]
        have f1' : Few 1 ({ d1 with stringManufacturer := i1 } : Device).stringPool := f1
        rcases f1'.rusb (by omega) p h.stringAscii desc.productIndex with ⟨⟨i, b1, b2⟩, b3⟩ | ⟨b1, i2, d2, b2, f2, P2, e2⟩
        · refine Or.inl ⟨Or.inr ⟨i, Or.inr (Or.inl b1), b2⟩, ?_⟩
          dsimp only
          rw [b3]; rfl
        dsimp only
        rw [b2, Outcome.bind_ok]
        have f2' : Few 2 ({ d2 with stringProduct := i2 } : Device).stringPool := f2
        rcases f2'.rusb (by omega) p h.stringAscii desc.serialIndex with ⟨⟨i, c1, c2⟩, c3⟩ | ⟨c1, i3, d3, c2, f3, P3, e3⟩
        · refine Or.inl ⟨Or.inr ⟨i, Or.inr (Or.inr c1), c2⟩, ?_⟩
          dsimp only
          rw [c3]; rfl
        dsimp only
        rw [c2, Outcome.bind_ok]
        refine Or.inr ⟨?_, ⟨by simp, by simp⟩, _, rfl⟩
        rintro (h3 | ⟨i, h3 | h3 | h3, h4⟩)
        · exact h1 h3
        · exact a1 i h3 h4
        · exact b1 i h3 h4
        · exact c1 i h3 h4

theorem nusbDevice_total (p : Profile) (n : NusbDev) :
    ((n.opened = false ∨ n.cfg = none) ∧ nusbDevice p n = .ok none) ∨
    (DefectiveNusb n ∧ nusbDevice p n = .panic) ∨
    (¬ DefectiveNusb n ∧ (n.opened = true ∧ n.cfg ≠ none) ∧ ∃ d, nusbDevice p n = .ok (some d)) := by
  cases ho : n.opened with
  | false => exact Or.inl ⟨Or.inl rfl, by simp [nusbDevice, ho]⟩
  | true =>
    cases hc : n.cfg with
    | none => exact Or.inl ⟨Or.inr rfl, by simp [nusbDevice, ho, hc]⟩
    | some cfg =>
      right
      have hdef : DefectiveNusb n ↔ ([] ∈ cfg.interfaces ∨
          (∃ f rest, f :: rest ∈ cfg.interfaces ∧ n.claimable f.number = false) ∨ n.speed = none) := by
        constructor
        · rintro ⟨cfg', _, e2, h3⟩
          rw [hc] at e2
          simp only [Option.some.injEq] at e2
          subst e2
          exact h3
        · exact fun h3 => ⟨cfg, ho, hc, h3⟩
      rw [hdef]
      rcases nusbInterfaces_total n cfg.interfaces 0 with ⟨h1, h2⟩ | ⟨h1, is, h2⟩
      · refine Or.inl ⟨?_, by simp only [nusbDevice, ho, hc]; rw [h2]; rfl⟩
        rcases h1 with h1 | h1
        · exact Or.inl h1
        · exact Or.inr (Or.inl h1)
      · cases hs : n.speed with
        | none => exact Or.inl ⟨Or.inr (Or.inr rfl), by simp only [nusbDevice, ho, hc, hs]; rw [h2]; rfl⟩
        | some sp =>
          refine Or.inr ⟨?_, ⟨rfl, by simp⟩, ?_⟩
          · rintro (h3 | h3 | h3)
            · exact h1 (Or.inl h3)
            · exact h1 (Or.inr h3)
            · simp at h3
          rw [nusbDevice_chain ho hc hs h2]
          have f0 : Few 0 (nusbBase n cfg sp is).stringPool := ⟨[], by simp, fun i hi => absurd rfl hi⟩
          obtain ⟨i1, d1, a2, f1, P1, e1⟩ := f0.nusb (by omega) p n.manufacturer
          rw [a2, Outcome.bind_ok]
          have f1' : Few 1 ({ d1 with stringManufacturer := i1 } : Device).stringPool := f1
          obtain ⟨i2, d2, b2, f2, P2, e2⟩ := f1'.nusb (by omega) p n.product
          dsimp only
          rw [b2, Outcome.bind_ok]
          have f2' : Few 2 ({ d2 with stringProduct := i2 } : Device).stringPool := f2
          obtain ⟨i3, d3, c2, f3, P3, e3⟩ := f2'.nusb (by omega) p n.serial
          dsimp only
          rw [c2, Outcome.bind_ok]
          exact ⟨_, rfl⟩

end Usbip
