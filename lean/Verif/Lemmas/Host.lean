import Verif.Model.Host
import Verif.Lemmas.Slots
/-! Helper lemmas about the construction of devices from host devices. -/

namespace Usbip

theorem newString_inv {p : Profile} {d d' : Device} {s i} (h : d.newString p s = .ok (i, d')) :
    newStringScan p d.stringPool 256 1 = .ok i ∧
    d' = { d with stringPool := poolInsert d.stringPool i s } := by
  simp only [Device.newString, Outcome.bind_eq_ok, Outcome.pure_eq, Outcome.ok.injEq,
    Prod.mk.injEq] at h
  obtain ⟨k, hk, rfl, rfl⟩ := h
  exact ⟨hk, rfl⟩

theorem rusbString_inv {p : Profile} {read idx} {d d' : Device} {i}
    (h : rusbString p read idx d = .ok (i, d')) :
    (idx = none ∧ i = 0 ∧ d' = d) ∨
    (∃ k s, idx = some k ∧ read k = some s ∧ newStringScan p d.stringPool 256 1 = .ok i ∧
      d' = { d with stringPool := poolInsert d.stringPool i s }) := by
  unfold rusbString at h
  split at h
  · simp only [Outcome.ok.injEq, Prod.mk.injEq] at h
    exact Or.inl ⟨rfl, h.1.symm, h.2.symm⟩
  · rename_i k
    split at h
    · simp at h
    · rename_i s hs
      obtain ⟨h1, h2⟩ := newString_inv h
      exact Or.inr ⟨k, s, rfl, hs, h1, h2⟩

theorem nusbString_inv {p : Profile} {o} {d d' : Device} {i}
    (h : nusbString p o d = .ok (i, d')) :
    (o = none ∧ i = 0 ∧ d' = d) ∨
    (∃ s, o = some s ∧ newStringScan p d.stringPool 256 1 = .ok i ∧
      d' = { d with stringPool := poolInsert d.stringPool i s }) := by
  unfold nusbString at h
  split at h
  · simp only [Outcome.ok.injEq, Prod.mk.injEq] at h
    exact Or.inl ⟨rfl, h.1.symm, h.2.symm⟩
  · rename_i s
    obtain ⟨h1, h2⟩ := newString_inv h
    exact Or.inr ⟨s, rfl, h1, h2⟩

theorem rusbString_keeps {p : Profile} {read idx} {d d' : Device} {i}
    (h : rusbString p read idx d = .ok (i, d')) : ∃ pool, d' = { d with stringPool := pool } := by
  rcases rusbString_inv h with ⟨_, _, rfl⟩ | ⟨_, _, _, _, _, rfl⟩
  · exact ⟨d'.stringPool, rfl⟩
  · exact ⟨_, rfl⟩

theorem nusbString_keeps {p : Profile} {o} {d d' : Device} {i}
    (h : nusbString p o d = .ok (i, d')) : ∃ pool, d' = { d with stringPool := pool } := by
  rcases nusbString_inv h with ⟨_, _, rfl⟩ | ⟨_, _, _, rfl⟩
  · exact ⟨d'.stringPool, rfl⟩
  · exact ⟨_, rfl⟩

/-- The device built for a host device before strings are copied. -/
def rusbBase (h : HostDev) (desc : HostDevDesc) (cfg : HostCfg) (interfaces : List Iface) : Device :=
  { Device.default with
    path := formatPath h.bus.toNat h.address.toNat h.port.toNat
    busId := formatBusId h.bus.toNat h.address.toNat h.port.toNat
    busNum := h.bus.toUInt32
    devNum := h.port.toUInt32
    speed := h.speed.toU32
    vendorId := desc.vendorId
    productId := desc.productId
    deviceClass := desc.cls
    deviceSubclass := desc.sub
    deviceProtocol := desc.proto
    deviceBcd := Version.ofRusb desc.bcdDevice
    configurationValue := cfg.value
    numConfigurations := desc.numConfigurations
    ep0In := { address := 0x80, attributes := EndpointAttributes.control.toU8
               maxPacketSize := desc.maxPacketSize.toUInt16, interval := 0 }
    ep0Out := { address := 0x00, attributes := EndpointAttributes.control.toU8
                maxPacketSize := desc.maxPacketSize.toUInt16, interval := 0 }
    interfaces := interfaces
    deviceHandler := some h.devHandler
    usbVersion := Version.ofRusb desc.bcdUsb }

theorem rusbDevice_inv {p : Profile} {h : HostDev} {d : Device} (hh : rusbDevice p h = .ok (some d)) :
    ∃ desc cfg interfaces i1 d1 i2 d2 i3 d3,
      h.desc = some desc ∧ h.cfg = some cfg ∧
      rusbInterfaces h.ifHandler 0 cfg.interfaces = .ok interfaces ∧
      rusbString p h.stringAscii desc.manufacturerIndex (rusbBase h desc cfg interfaces) = .ok (i1, d1) ∧
      rusbString p h.stringAscii desc.productIndex { d1 with stringManufacturer := i1 } = .ok (i2, d2) ∧
      rusbString p h.stringAscii desc.serialIndex { d2 with stringProduct := i2 } = .ok (i3, d3) ∧
      d = { d3 with stringSerial := i3 } := by
  unfold rusbDevice at hh
  split at hh
  · rename_i desc cfg hdesc hcfg
    rw [Outcome.bind_eq_ok] at hh
    obtain ⟨interfaces, h1, hh⟩ := hh
    simp only [Outcome.bind_eq_ok] at hh
    obtain ⟨⟨i1, d1⟩, h2, ⟨i2, d2⟩, h3, ⟨i3, d3⟩, h4, hh⟩ := hh
    simp only [Outcome.pure_eq, Outcome.ok.injEq, Option.some.injEq] at hh
    exact ⟨desc, cfg, interfaces, i1, d1, i2, d2, i3, d3, hdesc, hcfg, h1, h2, h3, h4, hh.symm⟩
  · simp at hh

/-- The device built for a nusb device before strings are copied. -/
def nusbBase (n : NusbDev) (cfg : HostCfg) (speed : NusbSpeed) (interfaces : List Iface) : Device :=
  { Device.default with
    path := formatPath n.bus.toNat n.address.toNat 0
    busId := formatBusId n.bus.toNat n.address.toNat 0
    busNum := n.bus.toUInt32
    devNum := 0
    speed := speed.toU32
    vendorId := n.vendorId
    productId := n.productId
    deviceClass := n.cls
    deviceSubclass := n.sub
    deviceProtocol := n.proto
    deviceBcd := Version.ofU16 n.bcdDevice
    configurationValue := cfg.value
    numConfigurations := asU8 n.configurations
    ep0In := { address := 0x80, attributes := EndpointAttributes.control.toU8
               maxPacketSize := 16, interval := 0 }
    ep0Out := { address := 0x00, attributes := EndpointAttributes.control.toU8
                maxPacketSize := 16, interval := 0 }
    interfaces := interfaces
    deviceHandler := some n.devHandler }

theorem nusbDevice_inv {p : Profile} {n : NusbDev} {d : Device} (hh : nusbDevice p n = .ok (some d)) :
    ∃ cfg interfaces speed i1 d1 i2 d2 i3 d3,
      n.cfg = some cfg ∧ n.speed = some speed ∧
      nusbInterfaces n 0 cfg.interfaces = .ok interfaces ∧
      nusbString p n.manufacturer (nusbBase n cfg speed interfaces) = .ok (i1, d1) ∧
      nusbString p n.product { d1 with stringManufacturer := i1 } = .ok (i2, d2) ∧
      nusbString p n.serial { d2 with stringProduct := i2 } = .ok (i3, d3) ∧
      d = { d3 with stringSerial := i3 } := by
  unfold nusbDevice at hh
  split at hh
  · simp at hh
  · split at hh
    · simp at hh
    · rename_i cfg hcfg
      simp only [Outcome.bind_eq_ok] at hh
      obtain ⟨interfaces, h1, sp, hs, ⟨i1, d1⟩, h2, ⟨i2, d2⟩, h3, ⟨i3, d3⟩, h4, hh⟩ := hh
      split at hs
      · rename_i speed hs'
        simp only [Outcome.ok.injEq] at hs
        subst hs
        simp only [Outcome.pure_eq, Outcome.ok.injEq, Option.some.injEq] at hh
        exact ⟨cfg, interfaces, speed, i1, d1, i2, d2, i3, d3, hcfg, hs', h1, h2, h3, h4, hh.symm⟩
      · simp at hs

end Usbip
