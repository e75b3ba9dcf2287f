import Verif.Spec.Enumerate
import Verif.Lemmas.Descriptor
/-! Helper lemmas: reading descriptors back. -/

namespace Usbip
open Spec

theorem byteAt_cons_zero (a : UInt8) (b : Bytes) : byteAt (a :: b) 0 = a.toNat := rfl
theorem byteAt_cons_succ (a : UInt8) (b : Bytes) (i : Nat) : byteAt (a :: b) (i + 1) = byteAt b i := by
  simp [byteAt]

theorem le_bytes (v : UInt16) :
    (UInt8.ofNat (v.toNat % 256)).toNat + 256 * (UInt8.ofNat (v.toNat / 256)).toNat = v.toNat := by
  have := v.toNat_lt
  simp only [UInt8.toNat_ofNat']
  omega

theorem readBlock_endpoint (e : Endpoint) (eps : List EpView) (ifs : List IfView) :
    readBlock (endpointBlock e) (some ([], eps, ifs)) = some ([], epView e :: eps, ifs) := by
  have h : endpointBlock e = [7, 5, e.address, e.attributes, UInt8.ofNat (e.maxPacketSize.toNat % 256),
      UInt8.ofNat (e.maxPacketSize.toNat / 256), e.interval] := rfl
  have hw := le_bytes e.maxPacketSize
  rw [h]
  simp [readBlock, byteAt, wordAt, epView] at hw ⊢
  exact hw

theorem foldr_endpoints (es : List Endpoint) (eps : List EpView) (ifs : List IfView) :
    (es.map endpointBlock).foldr readBlock (some ([], eps, ifs)) = some ([], es.map epView ++ eps, ifs) := by
  induction es with
  | nil => rfl
  | cons e es ih =>
    rw [List.map_cons, List.foldr_cons, ih, readBlock_endpoint]
    rfl

theorem foldr_extra (bls : List Bytes) (h : ∀ b ∈ bls, byteAt b 1 ≠ 4 ∧ byteAt b 1 ≠ 5)
    (eps : List EpView) (ifs : List IfView) :
    bls.foldr readBlock (some ([], eps, ifs)) = some (bls, eps, ifs) := by
  induction bls with
  | nil => rfl
  | cons b bls ih =>
    rw [List.foldr_cons, ih (fun x hx => h x (by simp [hx]))]
    obtain ⟨h4, h5⟩ := h b (by simp)
    simp [readBlock, h4, h5]

theorem foldr_interface (i : Nat) (hi : i ≤ 255) (f : Iface) (he : f.endpoints.length ≤ 255)
    (bls : List Bytes) (hw : walk f.classSpecificDescriptor = some bls)
    (hb : ∀ b ∈ bls, byteAt b 1 ≠ 4 ∧ byteAt b 1 ≠ 5) (ifs : List IfView) :
    (interfaceBlocks i f).foldr readBlock (some ([], [], ifs)) = some ([], [], ifView i f :: ifs) := by
  simp only [interfaceBlocks, hw, Option.getD_some, List.foldr_append, foldr_endpoints, List.append_nil,
    foldr_extra bls hb]
  simp [interfaceBlock, readBlock, byteAt, ifView, hw]
  omega

theorem foldr_interfaces (fs : List Iface) : ∀ (i : Nat), i + fs.length ≤ 256 →
    (∀ f ∈ fs, f.endpoints.length ≤ 255) →
    (∀ f ∈ fs, ∃ bls, walk f.classSpecificDescriptor = some bls ∧ ∀ b ∈ bls, byteAt b 1 ≠ 4 ∧ byteAt b 1 ≠ 5) →
    (allBlocks i fs).foldr readBlock (some ([], [], [])) = some ([], [], ifViews i fs) := by
  induction fs with
  | nil => intro i _ _ _; rfl
  | cons f fs ih =>
    intro i hl he hx
    rw [allBlocks, List.foldr_append, ih (i + 1) (by simp at hl; omega) (fun g hg => he g (by simp [hg]))
      (fun g hg => hx g (by simp [hg]))]
    obtain ⟨bls, h1, h2⟩ := hx f (by simp)
    rw [foldr_interface i (by simp at hl; omega) f (he f (by simp)) bls h1 h2]
    rfl

theorem ifViews_length (fs : List Iface) : ∀ i, (ifViews i fs).length = fs.length := by
  induction fs with
  | nil => intro i; rfl
  | cons f fs ih => intro i; simp [ifViews, ih]

theorem describable_walk {d : Device} (h : Describable d) :
    ∀ f ∈ d.interfaces, (walk f.classSpecificDescriptor).isSome := by
  intro f hf
  obtain ⟨bls, hb, _⟩ := h.extra f hf
  rw [hb]; rfl

theorem describable_length {d : Device} (h : Describable d) : d.configDescriptor.length < 65536 := by
  rw [configDescriptor_length, ifaceDescriptors_flatten _ _ (describable_walk h)]
  exact h.total

theorem config_header (d : Device) (h : Describable d) :
    d.configDescriptor.take 9 = configBlock d d.configDescriptor.length ∧
    wordAt (d.configDescriptor.take 9) 2 = d.configDescriptor.length := by
  have h1 := configDescriptor_eq d (describable_length h)
  have h2 : d.configDescriptor.take 9 = configBlock d d.configDescriptor.length := by
    conv => lhs; rw [h1]
    rfl
  refine ⟨h2, ?_⟩
  rw [h2]
  have := describable_length h
  simp [configBlock, le, wordAt, byteAt]
  omega

/-- The configuration descriptor reads back as the device's tree. -/
theorem readConfig_device (d : Device) (h : Describable d) :
    readConfig d.configDescriptor = some (cfgView d) := by
  have hlen := describable_length h
  have heq := configDescriptor_eq d hlen
  have hblk : ∀ b ∈ configBlock d d.configDescriptor.length :: allBlocks 0 d.interfaces, IsBlock b := by
    intro b hm
    rcases List.mem_cons.mp hm with rfl | hm
    · exact ⟨_, _, rfl, rfl⟩
    · exact allBlocks_isBlock _ _ (describable_walk h) b hm
  have hfl : d.configDescriptor = (configBlock d d.configDescriptor.length :: allBlocks 0 d.interfaces).flatten := by
    rw [List.flatten_cons, ← ifaceDescriptors_flatten _ _ (describable_walk h)]; exact heq
  have hwalk : walk d.configDescriptor = some (configBlock d d.configDescriptor.length :: allBlocks 0 d.interfaces) := by
    conv => lhs; rw [hfl]
    exact walk_flatten _ hblk
  have hf := foldr_interfaces d.interfaces 0 (by have := h.interfaces; omega) h.endpoints h.extra
  have hi := h.interfaces
  simp only [readConfig, hwalk, hf, Option.bind_eq_bind, Option.bind_some]
  rw [if_pos]
  · simp [configBlock, le, byteAt, cfgView]
  · simp [configBlock, le, byteAt, wordAt, ifViews_length]
    omega

theorem readDevice_device (d : Device) : readDevice (deviceBlock d) = some (devView d) := by
  have h1 := le_bytes d.vendorId
  have h2 := le_bytes d.productId
  simp [readDevice, deviceBlock, le, byteAt, wordAt, devView] at h1 h2 ⊢
  omega

end Usbip
