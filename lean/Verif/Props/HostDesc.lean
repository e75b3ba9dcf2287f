import Verif.Lemmas.HostDesc
import Verif.Props.Descriptors
import Verif.Props.Host
/-!
# What clients are shown of a shared host device: C64, C65, C66, C67
-/

namespace Usbip
open Spec Samples

/-! ## C64 -/

/-- C64 for libusb (what is missing: versions whose low byte is not zero or whose high byte is above
15, see `C64_rusb_fails`; the string indices are the library's own, see C52): the device descriptor a
client reads is, byte for byte, the one of the host device with both versions passed through
`keptVersion` and the string indices replaced; so identity, class, packet size and number of
configurations are the host's, and both versions are right exactly under the stated condition. -/
theorem C64_rusb_partial {σ} (env : Env σ) (p q : Profile) (h : HostDev) (d : Device) (desc : HostDevDesc)
    (hdesc : h.desc = some desc) (hd : rusbDevice p h = .ok (some d)) (len : UInt32) (data : Bytes)
    (w : World σ) :
    ∃ bs, d.handleUrb env q d.ep0In none len (getDescriptorSetup 1 0 0 18) data w = (.ok bs, w) ∧
      bs = hostDeviceBlock { desc with
        bcdUsb := UInt16.ofNat (keptVersion desc.bcdUsb.toNat)
        bcdDevice := UInt16.ofNat (keptVersion desc.bcdDevice.toNat)
        manufacturerIndex := some d.stringManufacturer, productIndex := some d.stringProduct
        serialIndex := some d.stringSerial } ∧
      (bs.take 14 = (hostDeviceBlock desc).take 14 ↔
        (desc.bcdUsb.toNat % 256 = 0 ∧ desc.bcdUsb.toNat < 4096) ∧
        (desc.bcdDevice.toNat % 256 = 0 ∧ desc.bcdDevice.toNat < 4096)) := by
  obtain ⟨desc', cfg, is, P, i1, i2, i3, e1, e2, e3, rfl⟩ := rusb_fields hd
  rw [hdesc] at e1
  simp only [Option.some.injEq] at e1
  subst e1
  refine ⟨_, (C56_identity env q _ _ none len data w 0 0 18 rfl (show 128 ≤ (0x80 : UInt8).toNat by decide)).1, ?_⟩
  have hk : ∀ v : UInt16, keptVersion v.toNat < 65536 := by
    intro v
    have := UInt16.toNat_lt v
    unfold keptVersion
    omega
  have hb : ∀ v : UInt16, le (keptVersion v.toNat) = le (UInt16.ofNat (keptVersion v.toNat)).toNat := by
    intro v
    rw [UInt16.toNat_ofNat', Nat.mod_eq_of_lt (hk v)]
  have hle : ∀ a b : Nat, a < 65536 → b < 65536 → (le a = le b ↔ a = b) := by
    intro a b ha hb
    constructor
    · intro hh
      simp only [le, List.cons.injEq, and_true] at hh
      have h1 := congrArg UInt8.toNat hh.1
      have h2 := congrArg UInt8.toNat hh.2
      simp only [UInt8.toNat_ofNat'] at h1 h2
      omega
    · rintro rfl; rfl
  have e18 : ∀ D : Device, (deviceBlock D).take (18 : UInt16).toNat = deviceBlock D := fun D => rfl
  rw [e18]
  have hm : UInt8.ofNat desc.maxPacketSize.toUInt16.toNat = desc.maxPacketSize := by
    apply u8_ext; simp
  have key : deviceBlock { rusbBase h desc cfg is with
      stringPool := P, stringManufacturer := i1, stringProduct := i2, stringSerial := i3 } =
      [18, 1] ++ le (keptVersion desc.bcdUsb.toNat) ++ [desc.cls, desc.sub, desc.proto, desc.maxPacketSize] ++
      le desc.vendorId.toNat ++ le desc.productId.toNat ++ le (keptVersion desc.bcdDevice.toNat) ++
      [i1, i2, i3, desc.numConfigurations] := by
    rw [← ofRusb_bytes, ← ofRusb_bytes]
    simp only [deviceBlock, rusbBase, hm]
    rfl
  refine ⟨?_, ?_⟩
  · rw [key]
    simp only [hostDeviceBlock, ← hb, Option.getD_some]
  · rw [key, ← keptVersion_eq, ← keptVersion_eq, ← hle _ _ (hk _) (UInt16.toNat_lt _),
      ← hle _ _ (hk _) (UInt16.toNat_lt _)]
    simp only [hostDeviceBlock, le, List.cons_append, List.nil_append, List.take_succ_cons, List.take_zero,
      List.cons.injEq, and_true, true_and]
    constructor
    · rintro ⟨a, b, c, d⟩; exact ⟨⟨a, b⟩, ⟨c, d⟩⟩
    · rintro ⟨⟨a, b⟩, ⟨c, d⟩⟩; exact ⟨a, b, c, d⟩

/-- C64: the exported record names the host device: bus number, vendor, product, class, active
configuration and the numbers of configurations and interfaces are the host's (libusb). -/
theorem C64_rusb_record (p q : Profile) (h : HostDev) (d : Device) (desc : HostDevDesc) (cfg : HostCfg)
    (bs : Bytes) (hdesc : h.desc = some desc) (hcfg : h.cfg = some cfg)
    (hd : rusbDevice p h = .ok (some d)) (hb : d.toBytes q = .ok bs) :
    (readDevInfo bs).busNum = h.bus.toNat ∧ (readDevInfo bs).idVendor = desc.vendorId.toNat ∧
    (readDevInfo bs).idProduct = desc.productId.toNat ∧
    (readDevInfo bs).bcdDevice = keptVersion desc.bcdDevice.toNat ∧
    (readDevInfo bs).deviceClass = desc.cls.toNat ∧ (readDevInfo bs).deviceSubClass = desc.sub.toNat ∧
    (readDevInfo bs).deviceProtocol = desc.proto.toNat ∧
    (readDevInfo bs).configurationValue = cfg.value.toNat ∧
    (readDevInfo bs).numConfigurations = desc.numConfigurations.toNat ∧
    (readDevInfo bs).numInterfaces = cfg.interfaces.length % 256 := by
  obtain ⟨desc', cfg', is, P, i1, i2, i3, e1, e2, e3, rfl⟩ := rusb_fields hd
  rw [hdesc] at e1
  rw [hcfg] at e2
  simp only [Option.some.injEq] at e1 e2
  subst e1 e2
  rw [(C10_record q _ bs hb).2]
  have hv := ofRusb_bytes desc.bcdDevice
  simp only [le, List.cons.injEq, and_true] at hv
  have hk : keptVersion desc.bcdDevice.toNat < 65536 := by
    have := UInt16.toNat_lt desc.bcdDevice
    unfold keptVersion
    omega
  refine ⟨?_, rfl, rfl, ?_, rfl, rfl, rfl, rfl, rfl, ?_⟩
  · simp [devInfo, rusbBase]
  · simp only [devInfo, rusbBase, hv.1, hv.2, UInt8.toNat_ofNat']
    omega
  · simp only [devInfo, rusbBase, (rusbInterfaces_blocks e3).1]

/-- The same for nusb. -/
theorem C64_nusb_record (p q : Profile) (n : NusbDev) (d : Device) (cfg : HostCfg)
    (bs : Bytes) (hcfg : n.cfg = some cfg)
    (hd : nusbDevice p n = .ok (some d)) (hb : d.toBytes q = .ok bs) :
    (readDevInfo bs).busNum = n.bus.toNat ∧ (readDevInfo bs).idVendor = n.vendorId.toNat ∧
    (readDevInfo bs).idProduct = n.productId.toNat ∧
    (readDevInfo bs).bcdDevice = 256 * (n.bcdDevice.toNat / 256) + n.bcdDevice.toNat / 16 % 16 ∧
    (readDevInfo bs).deviceClass = n.cls.toNat ∧ (readDevInfo bs).deviceSubClass = n.sub.toNat ∧
    (readDevInfo bs).deviceProtocol = n.proto.toNat ∧
    (readDevInfo bs).configurationValue = cfg.value.toNat ∧
    (readDevInfo bs).numConfigurations = n.configurations % 256 ∧
    (readDevInfo bs).numInterfaces = cfg.interfaces.length % 256 := by
  obtain ⟨cfg', speed, is, P, i1, i2, i3, e1, e2, e3, rfl⟩ := nusb_fields hd
  rw [hcfg] at e1
  simp only [Option.some.injEq] at e1
  subst e1
  rw [(C10_record q _ bs hb).2]
  refine ⟨?_, rfl, rfl, ?_, rfl, rfl, rfl, rfl, ?_, ?_⟩
  · simp [devInfo, nusbBase]
  · obtain ⟨v1, v2, _⟩ := version_fields n.bcdDevice
    simp only [devInfo, nusbBase, v1, v2]
    omega
  · simp [devInfo, nusbBase, asU8]
  · simp only [devInfo, nusbBase, (nusbInterfaces_blocks e3).1]

/-- The host device of the C52 example meets the conditions. -/
example : ∃ d desc, rusbDevice release hostA = .ok (some d) ∧ hostA.desc = some desc ∧
    desc.bcdUsb.toNat % 256 = 0 ∧ desc.bcdUsb.toNat < 4096 ∧ desc.bcdDevice.toNat % 256 = 0 :=
  ⟨_, _, rfl, rfl, by decide, by decide, by decide⟩

/-- A USB 2.1 host device. -/
def hostC : HostDev :=
  { hostA with desc := hostA.desc.map (fun d => { d with bcdUsb := 0x0210 }) }

/-- C64 fails for a USB 2.1 device shared through libusb: its descriptor starts 12 01 10 02, the client
is shown 12 01 01 02 (USB 2.01). -/
theorem C64_rusb_fails : ∃ d desc bs, rusbDevice release hostC = .ok (some d) ∧ hostC.desc = some desc ∧
    d.handleUrb env release d.ep0In none 18 (getDescriptorSetup 1 0 0 18) [] world = (.ok bs, world) ∧
    bs.take 4 = [18, 1, 0x01, 0x02] ∧ (hostDeviceBlock desc).take 4 = [18, 1, 0x10, 0x02] :=
  ⟨_, _, _, rfl, rfl, rfl, by decide, by decide⟩

/-- C45: the conversions between the library's versions and libusb's lose nothing, and libusb's two decimal
digits of the high byte and two of the low byte are the three numbers. -/
theorem C45_conversions (v : Version) (r : RusbVersion) (bcd : UInt16) :
    Version.ofRusbVersion v.toRusb = v ∧ (Version.ofRusbVersion r).toRusb = r ∧
    (Version.ofRusb bcd).toRusb = RusbVersion.fromBcd bcd ∧
    (Version.ofRusb bcd).major.toNat = 10 * (bcd.toNat / 4096) + bcd.toNat / 256 % 16 ∧
    (Version.ofRusb bcd).minor.toNat = bcd.toNat / 16 % 16 ∧
    (Version.ofRusb bcd).patch.toNat = bcd.toNat % 16 := by
  have hv := UInt16.toNat_lt bcd
  have hb := ofRusb_bytes bcd
  simp only [le, List.cons.injEq, and_true, keptVersion] at hb
  have e1 := congrArg UInt8.toNat hb.1
  have e2 := congrArg UInt8.toNat hb.2
  simp only [UInt8.toNat_ofNat'] at e1 e2
  refine ⟨rfl, rfl, rfl, by omega, by omega, ?_⟩
  show ((bcd &&& 0xF : UInt16).toUInt8).toNat = _
  rw [UInt16.toNat_toUInt8, UInt16.toNat_and]
  have : ∀ n : Nat, n &&& 15 = n % 16 := fun n => Nat.and_two_pow_sub_one_eq_mod n 4
  simp only [UInt16.toNat_ofNat, Nat.reducePow, Nat.reduceMod, this]
  omega

example : Version.ofRusb 0x1234 = ⟨12, 3, 4⟩ := by decide

/-- The device descriptor of a nusb device (its string indices are not known to the library). -/
def nusbDesc (n : NusbDev) : HostDevDesc :=
  { vendorId := n.vendorId, productId := n.productId, cls := n.cls, sub := n.sub, proto := n.proto
    bcdDevice := n.bcdDevice, bcdUsb := n.bcdUsb, numConfigurations := UInt8.ofNat n.configurations
    maxPacketSize := n.maxPacketSize, manufacturerIndex := none, productIndex := none, serialIndex := none }

/-- C64 for nusb (what is missing: USB version and packet size of endpoint 0 are never copied): the
device descriptor a client reads has USB version 0 and packet size 16; vendor, product, class and
number of configurations are the host's; and the first 14 bytes are the host's exactly if its USB
version is 0, its packet size 16 and the low byte of its device version 0. -/
theorem C64_nusb_partial {σ} (env : Env σ) (p q : Profile) (n : NusbDev) (d : Device)
    (hd : nusbDevice p n = .ok (some d)) (len : UInt32) (data : Bytes) (w : World σ) :
    ∃ bs, d.handleUrb env q d.ep0In none len (getDescriptorSetup 1 0 0 18) data w = (.ok bs, w) ∧
      bs = hostDeviceBlock { nusbDesc n with
        bcdUsb := 0, maxPacketSize := 16
        bcdDevice := UInt16.ofNat (256 * (n.bcdDevice.toNat / 256) + n.bcdDevice.toNat / 16 % 16)
        manufacturerIndex := some d.stringManufacturer, productIndex := some d.stringProduct
        serialIndex := some d.stringSerial } ∧
      (bs.take 14 = (hostDeviceBlock (nusbDesc n)).take 14 ↔
        n.bcdUsb = 0 ∧ n.maxPacketSize = 16 ∧ n.bcdDevice.toNat % 256 = 0) := by
  obtain ⟨cfg, speed, is, P, i1, i2, i3, e1, e2, e3, rfl⟩ := nusb_fields hd
  refine ⟨_, (C56_identity env q _ _ none len data w 0 0 18 rfl (show 128 ≤ (0x80 : UInt8).toNat by decide)).1, ?_⟩
  have e18 : ∀ D : Device, (deviceBlock D).take (18 : UInt16).toNat = deviceBlock D := fun D => rfl
  rw [e18]
  obtain ⟨v1, v2, _⟩ := version_fields n.bcdDevice
  have hv := UInt16.toNat_lt n.bcdDevice
  have hb : [(Version.ofU16 n.bcdDevice).minor, (Version.ofU16 n.bcdDevice).major] =
      le (256 * (n.bcdDevice.toNat / 256) + n.bcdDevice.toNat / 16 % 16) := by
    simp only [le, List.cons.injEq, and_true]
    constructor <;> apply u8_ext <;> simp only [UInt8.toNat_ofNat', v1, v2] <;> omega
  have key : deviceBlock { nusbBase n cfg speed is with
      stringPool := P, stringManufacturer := i1, stringProduct := i2, stringSerial := i3 } =
      [18, 1] ++ le 0 ++ [n.cls, n.sub, n.proto, 16] ++
      le n.vendorId.toNat ++ le n.productId.toNat ++
      le (256 * (n.bcdDevice.toNat / 256) + n.bcdDevice.toNat / 16 % 16) ++
      [i1, i2, i3, UInt8.ofNat n.configurations] := by
    rw [← hb]
    rfl
  refine ⟨?_, ?_⟩
  · rw [key]
    have : (UInt16.ofNat (256 * (n.bcdDevice.toNat / 256) + n.bcdDevice.toNat / 16 % 16)).toNat
        = 256 * (n.bcdDevice.toNat / 256) + n.bcdDevice.toNat / 16 % 16 := by
      rw [UInt16.toNat_ofNat']; omega
    simp only [hostDeviceBlock, this, nusbDesc, Option.getD_some]
    rfl
  · rw [key]
    simp only [hostDeviceBlock, nusbDesc, le, List.cons_append, List.nil_append, List.take_succ_cons,
      List.take_zero, List.cons.injEq, and_true, true_and]
    have hu := UInt16.toNat_lt n.bcdUsb
    constructor
    · rintro ⟨a, b, c, d, e⟩
      have a := congrArg UInt8.toNat a
      have b := congrArg UInt8.toNat b
      have d := congrArg UInt8.toNat d
      simp only [UInt8.toNat_ofNat'] at a b d
      have e : (256 * (n.bcdDevice.toNat / 256) + n.bcdDevice.toNat / 16 % 16) % 256 % 256
          = n.bcdDevice.toNat % 256 / 16 := by omega
      rw [e, Nat.mod_mod] at d
      clear e hb key hv v1 v2
      refine ⟨u16_ext (by simp; omega), c.symm, by omega⟩
    · rintro ⟨a, b, c⟩
      rw [a, b]
      refine ⟨by decide, by decide, rfl, ?_, ?_⟩
      · apply u8_ext; simp only [UInt8.toNat_ofNat']; omega
      · apply u8_ext; simp only [UInt8.toNat_ofNat']; omega

/-- A high-speed bulk device seen by nusb. -/
def nusbA : NusbDev where
  bus := 3
  address := 7
  speed := some .high
  vendorId := 0x1234
  productId := 0x5678
  cls := 0
  sub := 0
  proto := 0
  bcdDevice := 0x0100
  bcdUsb := 0x0200
  maxPacketSize := 64
  opened := true
  cfg := some { value := 1, attributes := 0x80, maxPower := 50, stringIndex := none, extra := []
                interfaces := [[{ number := 0, setting := 0, cls := 255, sub := 0, proto := 0
                                  endpoints := [⟨0x81, 2, 512, 0, []⟩]
                                  stringIndex := none, extra := [5, 0x24, 0, 0x10, 1] }]] }
  claimable _ := true
  configurations := 1
  manufacturer := some ['A']
  product := none
  serial := none
  ifHandler := id
  devHandler := 0

/-- C64 fails for every ordinary device shared through nusb, here a USB 2.0 one with 64-byte packets on
endpoint 0: the client is shown USB 0.00 and 16 bytes. -/
theorem C64_nusb_fails : ∃ d bs, nusbDevice release nusbA = .ok (some d) ∧
    d.handleUrb env release d.ep0In none 18 (getDescriptorSetup 1 0 0 18) [] world = (.ok bs, world) ∧
    bs.take 8 = [18, 1, 0, 0, 0, 0, 0, 16] ∧
    (hostDeviceBlock (nusbDesc nusbA)).take 8 = [18, 1, 0, 2, 0, 0, 0, 64] :=
  ⟨_, _, rfl, rfl, by decide, by decide⟩

/-! ## C65 -/

/-- C65 for libusb (what is missing: everything `kept` drops, see `C65_fails`): the configuration
descriptor a client reads consists of exactly the blocks of the kept part of the host's, in order, and
announces its own length; for a host device that has nothing else it is the host's own. -/
theorem C65_rusb_partial (p : Profile) (h : HostDev) (d : Device) (cfg : HostCfg) (bs : Bytes)
    (hcfg : h.cfg = some cfg) (hd : rusbDevice p h = .ok (some d)) (hr : ConfigReply d bs)
    (hlen : bs.length < 65536) (hi : cfg.interfaces.length ≤ 255)
    (he : ∀ alts ∈ cfg.interfaces, ∀ f ∈ alts, f.endpoints.length ≤ 255)
    (hx : ∀ alts ∈ cfg.interfaces, ∀ f ∈ alts, (walk f.extra).isSome) :
    walk bs = some (hostConfigBlocks (kept keptEp id cfg) bs.length) ∧
    (kept keptEp id cfg = cfg → walk bs = some (hostConfigBlocks cfg bs.length)) := by
  obtain ⟨desc, cfg', is, P, i1, i2, i3, e1, e2, e3, rfl⟩ := rusb_fields hd
  rw [hcfg] at e2
  simp only [Option.some.injEq] at e2
  subst e2
  obtain ⟨b1, b2, b3⟩ := rusbInterfaces_blocks e3
  have hget : ∀ f ∈ is, ∃ alts ∈ cfg.interfaces, ∃ d ∈ alts, f.endpoints = d.endpoints.map HostEp.rusb ∧
      f.classSpecificDescriptor = d.extra := by
    intro f hf
    obtain ⟨k, hk⟩ := List.mem_iff_getElem?.mp hf
    obtain ⟨d, ds, g1, _, g3, _, _, _, g4⟩ := rusbInterfaces_get e3 k f hk
    exact ⟨d :: ds, List.mem_of_getElem? g1, d, by simp, g3, g4⟩
  have key := (C13_configuration _ bs hr hlen (by simpa [rusbBase, b1] using hi)
    (by
      intro f hf
      obtain ⟨alts, ha, d, hd, g1, _⟩ := hget f hf
      rw [g1, List.length_map]
      exact he alts ha d hd)
    (by
      intro f hf
      obtain ⟨alts, ha, d, hd, _, g2⟩ := hget f hf
      rw [g2]
      exact hx alts ha d hd)).1
  have main : walk bs = some (hostConfigBlocks (kept keptEp id cfg) bs.length) := by
    rw [key]
    simp only [hostConfigBlocks, kept, b2, b3, configBlock, rusbBase, b1, walk, Option.getD_some, Option.getD_none,
      List.append_nil, List.nil_append, List.singleton_append, List.cons_append, Device.default]
  exact ⟨main, fun hk => by rw [main, hk]⟩

/-- C65 for nusb: the same, but class-specific blocks and the upper bits of packet sizes are dropped
too. -/
theorem C65_nusb_partial (p : Profile) (n : NusbDev) (d : Device) (cfg : HostCfg) (bs : Bytes)
    (hcfg : n.cfg = some cfg) (hd : nusbDevice p n = .ok (some d)) (hr : ConfigReply d bs)
    (hlen : bs.length < 65536) (hi : cfg.interfaces.length ≤ 255)
    (he : ∀ alts ∈ cfg.interfaces, ∀ f ∈ alts, f.endpoints.length ≤ 255) :
    walk bs = some (hostConfigBlocks (kept keptEpNusb (fun _ => []) cfg) bs.length) ∧
    (kept keptEpNusb (fun _ => []) cfg = cfg → walk bs = some (hostConfigBlocks cfg bs.length)) := by
  obtain ⟨cfg', speed, is, P, i1, i2, i3, e1, e2, e3, rfl⟩ := nusb_fields hd
  rw [hcfg] at e1
  simp only [Option.some.injEq] at e1
  subst e1
  obtain ⟨b1, b2, b3⟩ := nusbInterfaces_blocks e3
  have hget := nusbInterfaces_get e3
  have hcs : ∀ {i ifs is}, nusbInterfaces n i ifs = .ok is → ∀ f ∈ is, f.classSpecificDescriptor = [] := by
    intro i ifs
    induction ifs generalizing i with
    | nil => intro is hh f hf; simp [nusbInterfaces] at hh; subst hh; simp at hf
    | cons alts rest ih =>
      intro is hh f hf
      cases alts with
      | nil => simp [nusbInterfaces] at hh
      | cons d ds =>
        simp only [nusbInterfaces] at hh
        split at hh
        · simp at hh
        simp only [Outcome.bind_eq_ok, Outcome.pure_eq, Outcome.ok.injEq] at hh
        obtain ⟨is', h1, rfl⟩ := hh
        rcases List.mem_cons.mp hf with rfl | hf
        · rfl
        · exact ih h1 f hf
  have key := (C13_configuration _ bs hr hlen (by simpa [nusbBase, b1] using hi)
    (by
      intro f hf
      obtain ⟨k, hk⟩ := List.mem_iff_getElem?.mp (show f ∈ is from hf)
      obtain ⟨d, ds, g1, _, g3, _⟩ := hget k f hk
      rw [g3, List.length_map]
      exact he _ (List.mem_of_getElem? g1) d (by simp))
    (by
      intro f hf
      rw [hcs e3 f hf]
      simp [walk])).1
  have main : walk bs = some (hostConfigBlocks (kept keptEpNusb (fun _ => []) cfg) bs.length) := by
    rw [key]
    simp only [hostConfigBlocks, kept, b2, b3, configBlock, nusbBase, b1, walk, Option.getD_some, Option.getD_none,
      List.append_nil, List.nil_append, List.singleton_append, List.cons_append, Device.default]
  exact ⟨main, fun hk => by rw [main, hk]⟩

/-- A host device nothing of which is dropped. -/
example : ∃ d bs cfg, rusbDevice release hostA = .ok (some d) ∧ hostA.cfg = some cfg ∧ ConfigReply d bs ∧
    bs.length = 18 ∧ kept keptEp id cfg = cfg := by
  refine ⟨_, _, _, rfl, rfl, configReply_of (fun _ => rfl), by decide, by decide⟩

/-- A camera: self powered with remote wakeup, 200 mA, an interface association before its interfaces,
which have the numbers 0 and 2; the second has an alternate setting with an asynchronous isochronous
endpoint of three packets per microframe. -/
def camCfg : HostCfg where
  value := 1
  attributes := 0xE0
  maxPower := 100
  stringIndex := some 4
  extra := [8, 11, 0, 3, 14, 3, 0, 0]
  interfaces := [
    [{ number := 0, setting := 0, cls := 14, sub := 1, proto := 0, endpoints := [⟨0x83, 0x13, 64, 8, [5, 0x25, 3, 64, 0]⟩]
       stringIndex := none, extra := [3, 0x24, 1] }],
    [{ number := 2, setting := 0, cls := 14, sub := 2, proto := 0, endpoints := []
       stringIndex := none, extra := [] },
     { number := 2, setting := 1, cls := 14, sub := 2, proto := 0, endpoints := [⟨0x81, 0x05, 0x1400, 1, []⟩]
       stringIndex := none, extra := [] }]]

def hostCam : HostDev := { hostA with cfg := some camCfg }

/-- C65 fails: what a client reads of the camera, and what the camera itself answers. Configuration
attributes, power, name and interface association are lost, so are the endpoint's usage bits and its
class-specific block and the alternate setting, and interface 2 is called 1. -/
theorem C65_fails : ∃ d bs, rusbDevice release hostCam = .ok (some d) ∧ ConfigReply d bs ∧
    bs.length = 37 ∧
    walk bs = some [[9, 2, 37, 0, 2, 1, 0, 0x80, 50], [9, 4, 0, 0, 1, 14, 1, 0, 0], [3, 0x24, 1],
      [7, 5, 0x83, 3, 64, 0, 8], [9, 4, 1, 0, 0, 14, 2, 0, 0]] ∧
    hostConfigBlocks camCfg 66 = [[9, 2, 66, 0, 2, 1, 4, 0xE0, 100], [8, 11, 0, 3, 14, 3, 0, 0],
      [9, 4, 0, 0, 1, 14, 1, 0, 0], [3, 0x24, 1], [7, 5, 0x83, 0x13, 64, 0, 8], [5, 0x25, 3, 64, 0],
      [9, 4, 2, 0, 0, 14, 2, 0, 0], [9, 4, 2, 1, 1, 14, 2, 0, 0], [7, 5, 0x81, 5, 0, 0x14, 1]] := by
  refine ⟨_, [9, 2, 37, 0, 2, 1, 0, 0x80, 50, 9, 4, 0, 0, 1, 14, 1, 0, 0, 3, 0x24, 1, 7, 5, 0x83, 3, 64, 0, 8,
    9, 4, 1, 0, 0, 14, 2, 0, 0], rfl, configReply_of (fun _ => rfl), by decide, ?_, ?_⟩
  · simp [walk]
  · simp [hostConfigBlocks, camCfg, hostSettingBlocks, hostEndpointBlocks, walk, le]

/-! ## C66 -/

/-- C66 for libusb (what is missing: SuperSpeed): the speed in the exported record is the USB/IP number
of the host device's speed exactly up to high speed; SuperSpeed is announced as wireless and SuperSpeed+
as SuperSpeed. -/
theorem C66_rusb_partial (p q : Profile) (h : HostDev) (d : Device) (bs : Bytes)
    (hd : rusbDevice p h = .ok (some d)) (hb : d.toBytes q = .ok bs) :
    ((readDevInfo bs).speed = speedCode h.speed ↔ h.speed ≠ .super ∧ h.speed ≠ .superPlus) ∧
    (h.speed = .super → (readDevInfo bs).speed = 4) ∧ (h.speed = .superPlus → (readDevInfo bs).speed = 5) := by
  obtain ⟨desc, cfg, is, P, i1, i2, i3, e1, e2, e3, rfl⟩ := rusb_fields hd
  rw [(C10_record q _ bs hb).2]
  simp only [devInfo, rusbBase]
  cases h.speed <;> decide

/-- C66 for nusb: the announced speed is never the host device's, but one number lower or worse. -/
theorem C66_nusb_fails (p q : Profile) (n : NusbDev) (d : Device) (bs : Bytes)
    (hd : nusbDevice p n = .ok (some d)) (hb : d.toBytes q = .ok bs) :
    ∃ s, n.speed = some s ∧ (readDevInfo bs).speed < nusbSpeedCode s := by
  obtain ⟨cfg, speed, is, P, i1, i2, i3, e1, e2, e3, rfl⟩ := nusb_fields hd
  refine ⟨speed, e2, ?_⟩
  rw [(C10_record q _ bs hb).2]
  simp only [devInfo, nusbBase]
  cases speed <;> decide

/-- The sample devices have records. -/
example : ∃ d bs, nusbDevice release nusbA = .ok (some d) ∧ d.toBytes release = .ok bs ∧
    (readDevInfo bs).speed = 2 := ⟨_, _, rfl, rfl, by decide⟩
example : ∃ d bs, rusbDevice release { hostA with speed := .super } = .ok (some d) ∧
    d.toBytes release = .ok bs ∧ (readDevInfo bs).speed = 4 := ⟨_, _, rfl, rfl, by decide⟩

/-! ## C67 -/

/-- A request to an interface of a shared device, in either direction. -/
theorem toInterface_calls {σ} (lib : RusbLib σ) (hl : Honest lib) (env : Env (σ × List LibCall)) (p q : Profile)
    (h : HostDev) (d : Device) (cfg : HostCfg) (k : Nat)
    (henv : ∀ i e l s b u, env.iface (h.ifHandler k) i e l s b u = rusbIface (watchLib lib) e l s b u)
    (hcfg : h.cfg = some cfg) (hd : rusbDevice p h = .ok (some d))
    (hk : k < cfg.interfaces.length) (hk256 : k < 256)
    (len : UInt32) (setup : SetupPacket) (hs : setup.index.toNat = k) (data : Bytes)
    (w : World (σ × List LibCall)) (hp : w.ifPoisoned (h.ifHandler k) = false)
    (hrec : setup.requestType.toNat % 16 = 1) (e : Endpoint) (he : e.attributes = 0) :
    let call := if 128 ≤ e.address.toNat then
        LibCall.readControl setup.requestType setup.request setup.value setup.index len.toNat
      else LibCall.writeControl setup.requestType setup.request setup.value setup.index data
    (d.handleUrb env q e none len setup data w).1 = .ok (readBytes (call.answer lib w.user.1)) ∧
    (d.handleUrb env q e none len setup data w).2.user = (call.after lib w.user.1, w.user.2 ++ [call]) := by
  obtain ⟨desc, cfg', is, P, i1, i2, i3, e1, e2, e3, hd'⟩ := rusb_fields hd
  rw [hcfg] at e2
  simp only [Option.some.injEq] at e2
  subst e2
  have hint : d.interfaces = is := by rw [hd']; rfl
  clear hd'
  obtain ⟨b1, _, _⟩ := rusbInterfaces_blocks e3
  have hlt : k < is.length := by rw [b1]; exact hk
  obtain ⟨_, _, _, hh, _⟩ := rusbInterfaces_get e3 k is[k] (List.getElem?_eq_getElem hlt)
  simp only [Nat.zero_add] at hh
  have h0 : e.attributes.toNat = 0 := by rw [he]; rfl
  have hadr : addressee d e none len setup data = some (.iface is[k].handler is[k] e len setup data) := by
    have hns : ¬ standard e setup := by
      unfold standard
      omega
    unfold addressee
    rw [if_pos h0, if_neg hns, if_pos hrec, hint, hs, Nat.mod_eq_of_lt hk256, List.getElem?_eq_getElem hlt]
    rfl
  intro call
  rw [handleUrb_addressee, hadr]
  simp only
  have hI := invoke_eq env w (.iface is[k].handler is[k] e len setup data)
  rw [hI.1, hI.2]
  simp only [HCall.poisoned, hh, hp, HCall.answer, henv]
  have hC := C42_interface lib hl e len setup data w.user.1 w.user.2
  have hcall : ifaceCall e len setup data = some call := by
    simp only [ifaceCall, h0]
    rfl
  rw [hcall] at hC
  have hw : w.user = (w.user.1, w.user.2) := rfl
  rw [← hw] at hC
  rw [hC]
  exact ⟨rfl, rfl⟩

/-- C67 (partial: for host interfaces whose number is their position, see `C67_fails`): a control
request a client addresses to a published interface of a shared libusb device, by the number in that
interface's published descriptor, makes the host perform exactly that one request, addressed to the
host interface it was published for; a read gives the client exactly what the host read. -/
theorem C67_partial {σ} (lib : RusbLib σ) (hl : Honest lib) (env : Env (σ × List LibCall)) (p q : Profile)
    (h : HostDev) (d : Device) (cfg : HostCfg) (k : Nat) (f : HostIfDesc) (fs : List HostIfDesc)
    (henv : ∀ i e l s b u, env.iface (h.ifHandler k) i e l s b u = rusbIface (watchLib lib) e l s b u)
    (hcfg : h.cfg = some cfg) (hd : rusbDevice p h = .ok (some d))
    (hk : cfg.interfaces[k]? = some (f :: fs)) (hnum : f.number.toNat = k)
    (len : UInt32) (rt rq : UInt8) (value wLength : UInt16) (data : Bytes) (w : World (σ × List LibCall))
    (hp : w.ifPoisoned (h.ifHandler k) = false) (hrec : rt.toNat % 16 = 1) :
    (let call := LibCall.readControl rt rq value f.number.toUInt16 len.toNat
     (d.handleUrb env q d.ep0In none len ⟨rt, rq, value, UInt16.ofNat k, wLength⟩ data w).1
       = .ok (readBytes (call.answer lib w.user.1)) ∧
     (d.handleUrb env q d.ep0In none len ⟨rt, rq, value, UInt16.ofNat k, wLength⟩ data w).2.user
       = (call.after lib w.user.1, w.user.2 ++ [call])) ∧
    (let call := LibCall.writeControl rt rq value f.number.toUInt16 data
     (d.handleUrb env q d.ep0Out none len ⟨rt, rq, value, UInt16.ofNat k, wLength⟩ data w).1 = .ok [] ∧
     (d.handleUrb env q d.ep0Out none len ⟨rt, rq, value, UInt16.ofNat k, wLength⟩ data w).2.user
       = (call.after lib w.user.1, w.user.2 ++ [call])) := by
  have hk256 : k < 256 := by rw [← hnum]; exact UInt8.toNat_lt _
  have hidx : (UInt16.ofNat k).toNat = k := by rw [UInt16.toNat_ofNat']; omega
  have hidx' : UInt16.ofNat k = f.number.toUInt16 := by
    apply u16_ext; rw [hidx, ← hnum]; simp
  have hlt := (List.getElem?_eq_some_iff.mp hk).1
  obtain ⟨desc, cfg', is, P, i1, i2, i3, _, _, _, hd'⟩ := rusb_fields hd
  have hin : d.ep0In.attributes = 0 ∧ 128 ≤ d.ep0In.address.toNat := by
    rw [hd']; exact ⟨rfl, show 128 ≤ (0x80 : UInt8).toNat by decide⟩
  have hout : d.ep0Out.attributes = 0 ∧ ¬ 128 ≤ d.ep0Out.address.toNat := by
    rw [hd']; exact ⟨rfl, show ¬ 128 ≤ (0 : UInt8).toNat by decide⟩
  clear hd'
  have key := fun e he => toInterface_calls lib hl env p q h d cfg k henv hcfg hd hlt hk256 len
    ⟨rt, rq, value, UInt16.ofNat k, wLength⟩ hidx data w hp hrec e he
  constructor
  · have := key d.ep0In hin.1
    simp only [if_pos hin.2, ← hidx'] at this ⊢
    exact this
  · have := key d.ep0Out hout.1
    simp only [if_neg hout.2, ← hidx'] at this ⊢
    exact this

/-- C67, exactly, libusb: whatever number the host interface has, a request to the `k`-th published
interface, by its published number `k`, makes the host perform exactly that one request, addressed to
interface number `k`; that is the host interface it was published for exactly if that one's number is `k`. -/
theorem C67_exact {σ} (lib : RusbLib σ) (hl : Honest lib) (env : Env (σ × List LibCall)) (p q : Profile)
    (h : HostDev) (d : Device) (cfg : HostCfg) (k : Nat) (f : HostIfDesc) (fs : List HostIfDesc)
    (henv : ∀ i e l s b u, env.iface (h.ifHandler k) i e l s b u = rusbIface (watchLib lib) e l s b u)
    (hcfg : h.cfg = some cfg) (hd : rusbDevice p h = .ok (some d))
    (hk : cfg.interfaces[k]? = some (f :: fs)) (hk256 : k < 256)
    (len : UInt32) (rt rq : UInt8) (value wLength : UInt16) (data : Bytes) (w : World (σ × List LibCall))
    (hp : w.ifPoisoned (h.ifHandler k) = false) (hrec : rt.toNat % 16 = 1) :
    (let call := LibCall.readControl rt rq value (UInt16.ofNat k) len.toNat
     (d.handleUrb env q d.ep0In none len ⟨rt, rq, value, UInt16.ofNat k, wLength⟩ data w).1
       = .ok (readBytes (call.answer lib w.user.1)) ∧
     (d.handleUrb env q d.ep0In none len ⟨rt, rq, value, UInt16.ofNat k, wLength⟩ data w).2.user
       = (call.after lib w.user.1, w.user.2 ++ [call])) ∧
    (let call := LibCall.writeControl rt rq value (UInt16.ofNat k) data
     (d.handleUrb env q d.ep0Out none len ⟨rt, rq, value, UInt16.ofNat k, wLength⟩ data w).1 = .ok [] ∧
     (d.handleUrb env q d.ep0Out none len ⟨rt, rq, value, UInt16.ofNat k, wLength⟩ data w).2.user
       = (call.after lib w.user.1, w.user.2 ++ [call])) ∧
    (UInt16.ofNat k = f.number.toUInt16 ↔ f.number.toNat = k) := by
  have hidx : (UInt16.ofNat k).toNat = k := by rw [UInt16.toNat_ofNat']; omega
  have hlt := (List.getElem?_eq_some_iff.mp hk).1
  obtain ⟨desc, cfg', is, P, i1, i2, i3, _, _, _, hd'⟩ := rusb_fields hd
  have hin : d.ep0In.attributes = 0 ∧ 128 ≤ d.ep0In.address.toNat := by
    rw [hd']; exact ⟨rfl, show 128 ≤ (0x80 : UInt8).toNat by decide⟩
  have hout : d.ep0Out.attributes = 0 ∧ ¬ 128 ≤ d.ep0Out.address.toNat := by
    rw [hd']; exact ⟨rfl, show ¬ 128 ≤ (0 : UInt8).toNat by decide⟩
  clear hd'
  have key := fun e he => toInterface_calls lib hl env p q h d cfg k henv hcfg hd hlt hk256 len
    ⟨rt, rq, value, UInt16.ofNat k, wLength⟩ hidx data w hp hrec e he
  refine ⟨?_, ?_, ?_⟩
  · have := key d.ep0In hin.1
    simp only [if_pos hin.2] at this ⊢
    exact this
  · have := key d.ep0Out hout.1
    simp only [if_neg hout.2] at this ⊢
    exact this
  · constructor
    · intro e
      have := congrArg UInt16.toNat e
      rw [hidx] at this
      simpa using this.symm
    · intro e
      apply u16_ext; rw [hidx, ← e]; simp

/-- C67, exactly, nusb: the same, for requests whose type is not reserved (see C43); the request is made
through the `k`-th handle, which is the claimed interface the `k`-th published one was made from. -/
theorem C67_nusb_exact {σ} (lib : NusbLib σ) (env : Env σ) (p q : Profile)
    (hl : ∀ c n s l f, (lib.controlIn c n s).1 = some (l, f) → l ≤ n)
    (n : NusbDev) (d : Device) (cfg : HostCfg) (k : Nat) (f : HostIfDesc) (fs : List HostIfDesc)
    (henv : ∀ i e l s b u, env.iface (n.ifHandler k) i e l s b u = nusbIface lib e l s b u)
    (hcfg : n.cfg = some cfg) (hd : nusbDevice p n = .ok (some d))
    (hk : cfg.interfaces[k]? = some (f :: fs)) (hk256 : k < 256)
    (len : UInt32) (rt rq : UInt8) (value wLength : UInt16) (data : Bytes) (w : World σ)
    (hp : w.ifPoisoned (n.ifHandler k) = false) (t : NusbType)
    (ht : rt.toNat / 32 % 4 = typeBits t) (hrec : rt.toNat % 32 = 1) :
    let c : NusbControl := ⟨t, .interface, rq, value, UInt16.ofNat k⟩
    ((d.handleUrb env q d.ep0In none len ⟨rt, rq, value, UInt16.ofNat k, wLength⟩ data w).1
       = .ok (readBytes (lib.controlIn c len.toNat w.user).1) ∧
     (d.handleUrb env q d.ep0In none len ⟨rt, rq, value, UInt16.ofNat k, wLength⟩ data w).2.user
       = (lib.controlIn c len.toNat w.user).2) ∧
    ((d.handleUrb env q d.ep0Out none len ⟨rt, rq, value, UInt16.ofNat k, wLength⟩ data w).1 = .ok [] ∧
     (d.handleUrb env q d.ep0Out none len ⟨rt, rq, value, UInt16.ofNat k, wLength⟩ data w).2.user
       = lib.controlOut c data w.user) ∧
    (UInt16.ofNat k = f.number.toUInt16 ↔ f.number.toNat = k) ∧ n.claimable f.number = true := by
  have hidx : (UInt16.ofNat k).toNat = k := by rw [UInt16.toNat_ofNat']; omega
  have hlt := (List.getElem?_eq_some_iff.mp hk).1
  obtain ⟨cfg', speed, is, P, i1, i2, i3, e1, _, e3, hd'⟩ := nusb_fields hd
  rw [hcfg] at e1
  simp only [Option.some.injEq] at e1
  subst e1
  have hin : d.ep0In.attributes.toNat = 0 ∧ 128 ≤ d.ep0In.address.toNat := by
    rw [hd']; exact ⟨rfl, show 128 ≤ (0x80 : UInt8).toNat by decide⟩
  have hout : d.ep0Out.attributes.toNat = 0 ∧ d.ep0Out.address.toNat < 128 := by
    rw [hd']; exact ⟨rfl, show (0 : UInt8).toNat < 128 by decide⟩
  have hint : d.interfaces = is := by rw [hd']; rfl
  clear hd'
  have hlen : is.length = cfg.interfaces.length ∧ n.claimable f.number = true := nusbInterfaces_claims e3 k f fs hk
  have hlt' : k < is.length := by rw [hlen.1]; exact hlt
  obtain ⟨_, _, _, hh, _⟩ := nusbInterfaces_get e3 k is[k] (List.getElem?_eq_getElem hlt')
  simp only [Nat.zero_add] at hh
  have key : ∀ e : Endpoint, e.attributes.toNat = 0 →
      (d.handleUrb env q e none len ⟨rt, rq, value, UInt16.ofNat k, wLength⟩ data w).1 =
        (nusbIface lib e len ⟨rt, rq, value, UInt16.ofNat k, wLength⟩ data w.user).1.toOutcome ∧
      (d.handleUrb env q e none len ⟨rt, rq, value, UInt16.ofNat k, wLength⟩ data w).2.user =
        (nusbIface lib e len ⟨rt, rq, value, UInt16.ofNat k, wLength⟩ data w.user).2 := by
    intro e h0
    have hr16 : rt.toNat % 16 = 1 := by omega
    have hadr : addressee d e none len ⟨rt, rq, value, UInt16.ofNat k, wLength⟩ data =
        some (.iface is[k].handler is[k] e len ⟨rt, rq, value, UInt16.ofNat k, wLength⟩ data) := by
      have hns : ¬ standard e ⟨rt, rq, value, UInt16.ofNat k, wLength⟩ := by
        unfold standard
        dsimp only
        omega
      unfold addressee
      rw [if_pos h0, if_neg hns]
      dsimp only
      rw [if_pos hr16, hint, hidx, Nat.mod_eq_of_lt hk256, List.getElem?_eq_getElem hlt']
      rfl
    rw [handleUrb_addressee, hadr]
    simp only
    have hI := invoke_eq env w (.iface is[k].handler is[k] e len ⟨rt, rq, value, UInt16.ofNat k, wLength⟩ data)
    rw [hI.1, hI.2]
    simp only [HCall.poisoned, hh, hp, HCall.answer, henv]
    exact ⟨rfl, rfl⟩
  have hF := fun e => C43_forwards lib e len ⟨rt, rq, value, UInt16.ofNat k, wLength⟩ data w.user t .interface hl ht
    (by simpa [recipientBits] using hrec)
  refine ⟨?_, ?_, ?_, hlen.2⟩
  · have := (hF d.ep0In).1 hin.1 hin.2
    have hk := key d.ep0In hin.1
    rw [this] at hk
    exact hk
  · have := (hF d.ep0Out).2.1 hout.1 hout.2
    have hk := key d.ep0Out hout.1
    rw [this] at hk
    exact hk
  · constructor
    · intro e
      have := congrArg UInt16.toNat e
      rw [hidx] at this
      simpa using this.symm
    · intro e
      apply u16_ext; rw [hidx, ← e]; simp

/-- A host that answers every control read with one byte, 7, and keeps nothing. -/
def sevenLib : RusbLib Unit where
  readControl _ _ _ _ n s := (if n = 0 then none else some (1, fun _ => 7), s)
  writeControl _ _ _ _ _ s := s
  readInterrupt _ _ s := (none, s)
  writeInterrupt _ _ s := s
  readBulk _ _ s := (none, s)
  writeBulk _ _ s := s

def sevenEnv : Env (Unit × List LibCall) where
  iface _ _ e l s b u := rusbIface (watchLib sevenLib) e l s b u
  dev _ l s b u := rusbDev (watchLib sevenLib) l s b u

def sevenWorld : World (Unit × List LibCall) := ⟨((), []), fun _ => false, fun _ => false⟩

/-- The camera's first interface meets the conditions of `C67_partial`. -/
example : Honest sevenLib ∧ ∃ d f fs, rusbDevice release hostCam = .ok (some d) ∧
    camCfg.interfaces[0]? = some (f :: fs) ∧ f.number.toNat = 0 := by
  refine ⟨?_, _, _, _, rfl, rfl, by decide⟩
  intro c s len f h
  cases c <;> simp only [LibCall.answer, sevenLib] at h ⊢ <;> try simp at h
  omega

/-- C67 fails for the camera's second interface: it is published as number 1, and a class request to
that number makes the host ask for interface 1, while the host's interface has number 2. -/
theorem C67_fails : ∃ d, rusbDevice release hostCam = .ok (some d) ∧
    (camCfg.interfaces[1]?.bind List.head?).map HostIfDesc.number = some 2 ∧
    (d.interfaces[1]?).map (fun f => interfaceBlock 1 f) = some [9, 4, 1, 0, 0, 14, 2, 0, 0] ∧
    (d.handleUrb sevenEnv release d.ep0In none 1 ⟨0xA1, 0x81, 0x0100, 1, 1⟩ [] sevenWorld).2.user.2
      = [.readControl 0xA1 0x81 0x0100 1 1] :=
  ⟨_, rfl, by decide, by decide, by decide⟩

/-! ## C52, all strings -/

/-- The string shown under an index when the strings `ss` are numbered from 1. -/
def numbered (ss : List Str) (k : UInt8) : Option Str := if k.toNat = 0 then none else ss[k.toNat - 1]?

theorem numbered_free (p : Profile) (ss : List Str) (h : ss.length ≤ 2) :
    newStringScan p (numbered ss) 256 1 = .ok (UInt8.ofNat (ss.length + 1)) ∧
    ∀ s, poolInsert (numbered ss) (UInt8.ofNat (ss.length + 1)) s = numbered (ss ++ [s]) := by
  have e : (255 : Nat) = 252 + 1 + 1 + 1 := rfl
  have hn : ∀ k : UInt8, ∀ ss : List Str, k.toNat > ss.length → numbered ss k = none := by
    intro k ss hk
    unfold numbered
    split
    · rfl
    · exact List.getElem?_eq_none (by omega)
  have hs : ∀ (k : UInt8) (ss : List Str), 1 ≤ k.toNat → k.toNat ≤ ss.length → (numbered ss k).isNone = false := by
    intro k ss h1 h2
    unfold numbered
    rw [if_neg (by omega), List.getElem?_eq_getElem (by omega)]
    rfl
  have hk : (UInt8.ofNat (ss.length + 1)).toNat = ss.length + 1 := by
    rw [UInt8.toNat_ofNat']; omega
  constructor
  · have h1 : ∀ (fuel : Nat) (i : UInt8), i.toNat ≠ 255 →
        newStringScan p (numbered ss) (fuel + 1) i =
          if (numbered ss i).isNone then .ok i else newStringScan p (numbered ss) fuel (i + 1) := by
      intro fuel i hi
      have : (i == 255) = false := by
        rw [beq_eq_false_iff_ne]; rintro rfl; exact hi rfl
      simp only [newStringScan, this, Bool.and_false, Bool.false_eq_true, if_false]
    have hc : ss.length = 0 ∨ ss.length = 1 ∨ ss.length = 2 := by omega
    rw [h1 255 1 (by decide)]
    rcases hc with hc | hc | hc
    · rw [hn 1 ss (by rw [hc]; decide), hc]; rfl
    · rw [if_neg (by rw [hs 1 ss (by decide) (by rw [hc]; decide)]; simp), e, h1 _ _ (by decide),
        hn _ ss (by rw [hc]; decide), hc]
      rfl
    · rw [if_neg (by rw [hs 1 ss (by decide) (by rw [hc]; decide)]; simp), e, h1 _ _ (by decide),
        if_neg (by rw [hs _ ss (by decide) (by rw [hc]; decide)]; simp), h1 _ _ (by decide),
        hn _ ss (by rw [hc]; decide), hc]
      rfl
  · intro s
    funext j
    unfold poolInsert
    by_cases hj : j = UInt8.ofNat (ss.length + 1)
    · rw [if_pos hj, hj]
      unfold numbered
      rw [hk, if_neg (by omega)]
      simp
    · have hj' : j.toNat ≠ ss.length + 1 := fun e => hj (u8_ext (by rw [e, hk]))
      rw [if_neg hj]
      unfold numbered
      split
      · rfl
      · by_cases hl : j.toNat - 1 < ss.length
        · rw [List.getElem?_append_left hl]
        · rw [List.getElem?_eq_none (by omega), List.getElem?_eq_none (by simp; omega)]

/-- One string copied. -/
theorem numbered_step {p : Profile} {ss : List Str} {o : Option Str} {i : UInt8} {P Q : UInt8 → Option Str}
    (hl : ss.length ≤ 2) (hP : P = numbered ss)
    (h : (o = none ∧ i = 0 ∧ Q = P) ∨
      ∃ s, o = some s ∧ newStringScan p P 256 1 = .ok i ∧ Q = poolInsert P i s) :
    Q = numbered (ss ++ o.toList) := by
  rcases h with ⟨rfl, _, rfl⟩ | ⟨s, rfl, h1, rfl⟩
  · rw [hP]; simp
  · obtain ⟨h2, h3⟩ := numbered_free p ss hl
    rw [hP, h2] at h1
    have := Outcome.ok.inj h1
    rw [hP, ← this, h3]
    rfl

theorem numbered_three {p : Profile} {o1 o2 o3 : Option Str} {i1 i2 i3 : UInt8} {P0 P1 P2 P3 : UInt8 → Option Str}
    (h0 : ∀ j, P0 j = none)
    (h1 : (o1 = none ∧ i1 = 0 ∧ P1 = P0) ∨
      ∃ s, o1 = some s ∧ newStringScan p P0 256 1 = .ok i1 ∧ P1 = poolInsert P0 i1 s)
    (h2 : (o2 = none ∧ i2 = 0 ∧ P2 = P1) ∨
      ∃ s, o2 = some s ∧ newStringScan p P1 256 1 = .ok i2 ∧ P2 = poolInsert P1 i2 s)
    (h3 : (o3 = none ∧ i3 = 0 ∧ P3 = P2) ∨
      ∃ s, o3 = some s ∧ newStringScan p P2 256 1 = .ok i3 ∧ P3 = poolInsert P2 i3 s) :
    P3 = numbered ([o1, o2, o3].filterMap id) := by
  have hz : P0 = numbered [] := by
    funext j; rw [h0]; unfold numbered; split <;> rfl
  have k1 := numbered_step (by simp) hz h1
  have k2 := numbered_step (by cases o1 <;> simp) k1 h2
  have k3 := numbered_step (by cases o1 <;> cases o2 <;> simp) k2 h3
  rw [k3]
  cases o1 <;> cases o2 <;> cases o3 <;> rfl

/-- C52, exactly, libusb: the strings a client can read are the host device's manufacturer, product and serial,
those it has, numbered 1, 2, 3; the interfaces keep the host's indices, so the name of an interface is shown
as the string that happens to have its index in that numbering. -/
theorem C52_rusb_shown (p : Profile) (h : HostDev) (d : Device) (desc : HostDevDesc) (cfg : HostCfg)
    (hdesc : h.desc = some desc) (hcfg : h.cfg = some cfg) (hd : rusbDevice p h = .ok (some d)) :
    let names := [desc.manufacturerIndex, desc.productIndex, desc.serialIndex].filterMap (·.bind h.stringAscii)
    (∀ k, presented d k = numbered names k) ∧
    ∀ (k : Nat) (f : Iface), d.interfaces[k]? = some f →
      ∃ s ss, cfg.interfaces[k]? = some (s :: ss) ∧
        presented d f.stringInterface = s.stringIndex.bind (numbered names) := by
  obtain ⟨desc', cfg', interfaces, i1, d1, i2, d2, i3, d3, hdesc', hcfg', hint, h1, h2, h3, rfl⟩ :=
    rusbDevice_inv hd
  rw [hdesc] at hdesc'
  rw [hcfg] at hcfg'
  simp only [Option.some.injEq] at hdesc' hcfg'
  subst hdesc' hcfg'
  intro names
  have conv : ∀ {idx : Option UInt8} {e e' : Device} {i : UInt8},
      rusbString p h.stringAscii idx e = .ok (i, e') →
      (idx.bind h.stringAscii = none ∧ i = 0 ∧ e'.stringPool = e.stringPool) ∨
      ∃ s, idx.bind h.stringAscii = some s ∧ newStringScan p e.stringPool 256 1 = .ok i ∧
        e'.stringPool = poolInsert e.stringPool i s := by
    intro idx e e' i he
    rcases rusbString_inv he with ⟨a, b, c⟩ | ⟨k, s, a, b, c, f⟩
    · exact Or.inl ⟨by rw [a]; rfl, b, by rw [c]⟩
    · exact Or.inr ⟨s, by rw [a]; exact b, c, by rw [f]⟩
  have c1 := conv h1
  have c2 := conv h2
  have c3 := conv h3
  have key := numbered_three (P0 := (rusbBase h desc cfg interfaces).stringPool) (P1 := d1.stringPool)
    (P2 := d2.stringPool) (P3 := d3.stringPool) (fun _ => rfl) c1 c2 c3
  have hnames : names = [desc.manufacturerIndex.bind h.stringAscii, desc.productIndex.bind h.stringAscii,
      desc.serialIndex.bind h.stringAscii].filterMap id := by
    simp only [names, List.filterMap_cons, List.filterMap_nil, id]
  rw [← hnames] at key
  have hpres : ∀ k, presented { d3 with stringSerial := i3 } k = numbered names k := by
    intro k
    show (if k = 0 then none else d3.stringPool k) = _
    rw [key]
    unfold numbered
    by_cases hk : k = 0
    · rw [if_pos hk, hk]; rfl
    · rw [if_neg hk]
  refine ⟨hpres, ?_⟩
  obtain ⟨_, e1⟩ := rusbString_keeps h1
  obtain ⟨_, e2⟩ := rusbString_keeps h2
  obtain ⟨_, e3⟩ := rusbString_keeps h3
  have hi : d3.interfaces = interfaces := by rw [e3, e2, e1]; rfl
  intro k f hf
  obtain ⟨s, ss, g1, g2⟩ := rusbInterfaces_string hint k f (by rw [← hi]; exact hf)
  refine ⟨s, ss, g1, ?_⟩
  rw [hpres, g2]
  cases s.stringIndex <;> rfl

/-- C52, exactly, nusb. -/
theorem C52_nusb_shown (p : Profile) (n : NusbDev) (d : Device) (cfg : HostCfg)
    (hcfg : n.cfg = some cfg) (hd : nusbDevice p n = .ok (some d)) :
    let names := [n.manufacturer, n.product, n.serial].filterMap id
    (∀ k, presented d k = numbered names k) ∧
    ∀ (k : Nat) (f : Iface), d.interfaces[k]? = some f →
      ∃ s ss, cfg.interfaces[k]? = some (s :: ss) ∧
        presented d f.stringInterface = s.stringIndex.bind (numbered names) := by
  obtain ⟨cfg', interfaces, speed, i1, d1, i2, d2, i3, d3, hcfg', _, hint, h1, h2, h3, rfl⟩ :=
    nusbDevice_inv hd
  rw [hcfg] at hcfg'
  simp only [Option.some.injEq] at hcfg'
  subst hcfg'
  intro names
  have conv : ∀ {o : Option Str} {e e' : Device} {i : UInt8},
      nusbString p o e = .ok (i, e') →
      (o = none ∧ i = 0 ∧ e'.stringPool = e.stringPool) ∨
      ∃ s, o = some s ∧ newStringScan p e.stringPool 256 1 = .ok i ∧
        e'.stringPool = poolInsert e.stringPool i s := by
    intro o e e' i he
    rcases nusbString_inv he with ⟨a, b, c⟩ | ⟨s, a, c, f⟩
    · exact Or.inl ⟨a, b, by rw [c]⟩
    · exact Or.inr ⟨s, a, c, by rw [f]⟩
  have c1 := conv h1
  have c2 := conv h2
  have c3 := conv h3
  have key := numbered_three (P0 := (nusbBase n cfg speed interfaces).stringPool) (P1 := d1.stringPool)
    (P2 := d2.stringPool) (P3 := d3.stringPool) (fun _ => rfl) c1 c2 c3
  have hpres : ∀ k, presented { d3 with stringSerial := i3 } k = numbered names k := by
    intro k
    show (if k = 0 then none else d3.stringPool k) = _
    rw [key]
    unfold numbered
    by_cases hk : k = 0
    · rw [if_pos hk, hk]; rfl
    · rw [if_neg hk]
  refine ⟨hpres, ?_⟩
  obtain ⟨_, e1⟩ := nusbString_keeps h1
  obtain ⟨_, e2⟩ := nusbString_keeps h2
  obtain ⟨_, e3⟩ := nusbString_keeps h3
  have hi : d3.interfaces = interfaces := by rw [e3, e2, e1]; rfl
  intro k f hf
  obtain ⟨s, ss, g1, g2⟩ := nusbInterfaces_string hint k f (by rw [← hi]; exact hf)
  refine ⟨s, ss, g1, ?_⟩
  rw [hpres, g2]
  cases s.stringIndex <;> rfl

/-- Two of three strings; interface 0 announces string 1, which now is the manufacturer. -/
example : ∃ d, rusbDevice release hostA = .ok (some d) ∧
    numbered ([some 3, none, some 9].filterMap (·.bind hostA.stringAscii)) 1 = some ['A', 'c'] ∧
    numbered ([some 3, none, some 9].filterMap (·.bind hostA.stringAscii)) 2 = some ['7'] ∧
    (d.interfaces[0]?.map (·.stringInterface)) = some 1 := ⟨_, rfl, by decide, by decide, by decide⟩

end Usbip
