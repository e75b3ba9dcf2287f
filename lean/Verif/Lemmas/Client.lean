import Verif.Lemmas.Wire
import Verif.Spec.Client
/-! Helper lemmas about decoding replies. -/

namespace Usbip
open Spec

theorem grab_append (a b : Bytes) (n : Nat) (h : a.length = n) : grab n (a ++ b) = some (a, b) := by
  subst h; simp [grab]

theorem field_skip (a b : Bytes) (n i k : Nat) (h : a.length = n) :
    field (a ++ b) (n + i) k = field b i k := by
  subst h
  simp [field, List.drop_append, List.drop_of_length_le (show a.length ≤ a.length + i by omega)]

theorem field_take (a b : Bytes) (k : Nat) (h : a.length = k) :
    field (a ++ b) 0 k = natBE a := by
  subst h; simp [field]

theorem natBE_be32 (x : UInt32) : natBE (be32 x) = x.toNat := by
  have := u32_lt x
  simp only [natBE, be32, List.foldl_cons, List.foldl_nil, UInt8.toNat_ofNat']
  omega

theorem natBE_be16 (x : UInt16) : natBE (be16 x) = x.toNat := by
  have := u16_lt x
  simp only [natBE, be16, List.foldl_cons, List.foldl_nil, UInt8.toNat_ofNat']
  omega

theorem field32 (x : UInt32) (b : Bytes) : field (be32 x ++ b) 0 4 = x.toNat := by
  rw [field_take _ _ 4 rfl, natBE_be32]

theorem field16 (x : UInt16) (b : Bytes) : field (be16 x ++ b) 0 2 = x.toNat := by
  rw [field_take _ _ 2 rfl, natBE_be16]

theorem field8 (x : UInt8) (b : Bytes) : field (x :: b) 0 1 = x.toNat := by
  simp [field, natBE]

theorem skip32 (x : UInt32) (b : Bytes) (i k : Nat) (h : 4 ≤ i) :
    field (be32 x ++ b) i k = field b (i - 4) k := by
  obtain ⟨j, rfl⟩ : ∃ j, i = 4 + j := ⟨i - 4, by omega⟩
  rw [field_skip _ _ 4 j k rfl]; simp

theorem skip16 (x : UInt16) (b : Bytes) (i k : Nat) (h : 2 ≤ i) :
    field (be16 x ++ b) i k = field b (i - 2) k := by
  obtain ⟨j, rfl⟩ : ∃ j, i = 2 + j := ⟨i - 2, by omega⟩
  rw [field_skip _ _ 2 j k rfl]; simp

theorem skip8 (x : UInt8) (b : Bytes) (i k : Nat) (h : 1 ≤ i) :
    field (x :: b) i k = field b (i - 1) k := by
  have := field_skip [x] b 1 (i - 1) k rfl
  rw [show 1 + (i - 1) = i by omega] at this
  simpa using this

theorem skipL (a b : Bytes) (n i k : Nat) (ha : a.length = n) (h : n ≤ i) :
    field (a ++ b) i k = field b (i - n) k := by
  have := field_skip a b n (i - n) k ha
  rwa [show n + (i - n) = i by omega] at this

theorem takeWhile_all (l : Bytes) (h : ∀ b ∈ l, b ≠ 0) : l.takeWhile (fun b => b != 0) = l := by
  induction l with
  | nil => rfl
  | cons b l ih =>
    rw [List.takeWhile_cons, if_pos (by simpa using h b (by simp)), ih (fun x hx => h x (by simp [hx]))]

theorem cstr_resize (l : Bytes) (n : Nat) : cstr (resize l n) = cstr (l.take n) := by
  simp only [cstr, resize]
  rw [List.takeWhile_append]
  split
  · rename_i h
    have : List.takeWhile (fun b => b != 0) (List.replicate (n - l.length) (0 : UInt8)) = [] := by
      cases n - l.length <;> simp [List.replicate_succ]
    rw [this, List.append_nil]
    exact (List.takeWhile_prefix _).eq_of_length h |>.symm
  · rfl

/-! ## Replies -/

theorem version_nat : USBIP_VERSION.toNat = 0x0111 := rfl

theorem header_bytes (h : Header) (b : Bytes) : h.toBytes ++ b =
    be32 h.command ++ (be32 h.seqnum ++ (be32 h.devid ++ (be32 h.direction ++ (be32 h.ep ++ b)))) := by
  simp [Header.toBytes]

theorem readHdr_header (h : Header) (b : Bytes) : readHdr (h.toBytes ++ b) = hdrInfo h := by
  rw [header_bytes]
  simp [readHdr, hdrInfo, skip32, field32]

/-- The 48-byte part of a submit reply. -/
theorem decodeSubmit_bytes (h : Header) (st al sf np ec : UInt32) (buf iso rest : Bytes)
    (hr : Representable (.retSubmit h st al sf np ec buf iso)) :
    decodeSubmit (h.toBytes ++ be32 st ++ be32 al ++ be32 sf ++ be32 np
      ++ be32 ec ++ List.replicate 8 0 ++ buf ++ iso ++ rest)
      = some (replyInfo (.retSubmit h st al sf np ec buf iso), rest) := by
  obtain ⟨h1, h2, h3⟩ := hr
  have e : h.toBytes ++ be32 st ++ be32 al ++ be32 sf ++ be32 np
      ++ be32 ec ++ List.replicate 8 0 ++ buf ++ iso ++ rest =
      (h.toBytes ++ (be32 st ++ (be32 al ++ (be32 sf ++ (be32 np
      ++ (be32 ec ++ List.replicate 8 0)))))) ++ (buf ++ (iso ++ rest)) := by simp
  rw [e]
  simp only [decodeSubmit]
  rw [grab_append _ _ 48 (by simp)]
  simp only [Option.bind_eq_bind, Option.bind_some]
  have hd : readHdr (h.toBytes ++ (be32 st ++ (be32 al ++ (be32 sf ++ (be32 np
      ++ (be32 ec ++ List.replicate 8 0)))))) = hdrInfo h := readHdr_header h _
  have f : ∀ i k, 20 ≤ i → field (h.toBytes ++ (be32 st ++ (be32 al ++ (be32 sf ++ (be32 np
      ++ (be32 ec ++ List.replicate 8 0)))))) i k = field (be32 st ++ (be32 al ++ (be32 sf ++ (be32 np
      ++ (be32 ec ++ List.replicate 8 0))))) (i - 20) k := fun i k hi => by
    rw [skipL _ _ 20 i k (by simp) hi]
  rw [hd, f 20 4 (by omega), f 24 4 (by omega), f 28 4 (by omega), f 32 4 (by omega),
    f 36 4 (by omega)]
  simp only [Nat.sub_self, field32, Nat.reduceSub, skip32, Nat.le_refl, Nat.reduceLeDiff]
  have hc : (hdrInfo h).command = 3 := h1
  rw [if_pos hc]
  rw [grab_append buf _ (if (hdrInfo h).direction = 1 then al.toNat else 0) h2]
  simp only [Option.bind_some]
  rw [grab_append iso _ _ h3]
  rfl

theorem decodeUnlink_bytes (h : Header) (st : UInt32) (rest : Bytes)
    (hr : Representable (.retUnlink h st)) :
    decodeUnlink (h.toBytes ++ be32 st ++ List.replicate 24 0 ++ rest)
      = some (replyInfo (.retUnlink h st), rest) := by
  have e : h.toBytes ++ be32 st ++ List.replicate 24 0 ++ rest =
      (h.toBytes ++ (be32 st ++ List.replicate 24 0)) ++ rest := by simp
  rw [e]
  simp only [decodeUnlink]
  rw [grab_append _ _ 48 (by simp)]
  simp only [Option.bind_eq_bind, Option.bind_some]
  rw [readHdr_header, skipL _ _ 20 20 4 (by simp) (by omega)]
  have hc : (hdrInfo h).command = 4 := hr
  rw [if_pos hc]
  simp [field32, replyInfo]

/-! ## Devices -/

/-- The record of a device. -/
def recordBytes (d : Device) : Bytes :=
  resize d.path 256 ++ (resize d.busId 32 ++ (be32 d.busNum ++ (be32 d.devNum ++ (be32 d.speed ++
    (be16 d.vendorId ++ (be16 d.productId ++ [d.deviceBcd.major, d.deviceBcd.minor, d.deviceClass,
      d.deviceSubclass, d.deviceProtocol, d.configurationValue, d.numConfigurations,
      asU8 d.interfaces.length]))))))

theorem recordBytes_length (d : Device) : (recordBytes d).length = 312 := by
  simp [recordBytes]

theorem toBytes_inv {p : Profile} {d : Device} {bs : Bytes} (h : d.toBytes p = .ok bs) :
    bs = recordBytes d := by
  simp only [Device.toBytes, Outcome.bind_eq_ok] at h
  obtain ⟨_, _, _, _, h⟩ := h
  simp only [Outcome.pure_eq, Outcome.ok.injEq] at h
  rw [← h]
  simp [recordBytes]

theorem toBytes_ok (p : Profile) (d : Device)
    (h : p.debugAssertions = true → d.path.length ≤ 256 ∧ d.busId.length ≤ 32) :
    d.toBytes p = .ok (recordBytes d) := by
  simp only [Device.toBytes]
  rw [debugAssert_of p (by simpa using fun hp => (h hp).1)]
  simp only [Outcome.bind_ok]
  rw [debugAssert_of p (by simpa using fun hp => (h hp).2)]
  simp [recordBytes]

theorem readDevInfo_record (d : Device) : readDevInfo (recordBytes d) = devInfo d := by
  have hs : ∀ i k, 288 ≤ i → field (recordBytes d) i k = field (be32 d.busNum ++ (be32 d.devNum ++
      (be32 d.speed ++ (be16 d.vendorId ++ (be16 d.productId ++ [d.deviceBcd.major,
      d.deviceBcd.minor, d.deviceClass,
      d.deviceSubclass, d.deviceProtocol, d.configurationValue, d.numConfigurations,
      asU8 d.interfaces.length]))))) (i - 288) k := by
    intro i k hi
    rw [recordBytes, skipL _ _ 256 i k (by simp) (by omega),
      skipL _ _ 32 (i - 256) k (by simp) (by omega), Nat.sub_sub]
  have h2 : ∀ a b : UInt8, ∀ l : Bytes, field (a :: b :: l) 0 2 = a.toNat * 256 + b.toNat := by
    intro a b l; simp [field, natBE]
  simp only [readDevInfo, devInfo, DevInfo.mk.injEq]
  have hp : cstr ((recordBytes d).take 256) = cstr (d.path.take 256) := by
    rw [recordBytes, List.take_append_of_le_length (by simp), List.take_of_length_le (by simp),
      cstr_resize]
  have hb : cstr (((recordBytes d).drop 256).take 32) = cstr (d.busId.take 32) := by
    rw [recordBytes, List.drop_append_of_le_length (by simp), List.drop_of_length_le (by simp),
      List.nil_append, List.take_append_of_le_length (by simp), List.take_of_length_le (by simp),
      cstr_resize]
  refine ⟨hp, hb, ?_⟩
  rw [hs 288 4 (by omega), hs 292 4 (by omega), hs 296 4 (by omega), hs 300 2 (by omega),
    hs 302 2 (by omega), hs 304 2 (by omega), hs 306 1 (by omega), hs 307 1 (by omega),
    hs 308 1 (by omega), hs 309 1 (by omega), hs 310 1 (by omega), hs 311 1 (by omega)]
  simp only [Nat.sub_self, field32, Nat.reduceSub, skip32, skip16, skip8, field16, field8, h2,
    Nat.le_refl, Nat.reduceLeDiff, true_and]
  simp [asU8]

theorem decodeDev_record (d : Device) (rest : Bytes) :
    decodeDev (recordBytes d ++ rest) = some (devInfo d, rest) := by
  simp [decodeDev, grab_append _ _ 312 (recordBytes_length d), readDevInfo_record]

/-- The interface part of a list entry. -/
def ifBytes (is : List Iface) : Bytes :=
  is.flatMap (fun i => [i.interfaceClass, i.interfaceSubclass, i.interfaceProtocol, 0])

theorem decodeIfs_bytes (is : List Iface) (rest : Bytes) :
    decodeIfs is.length (ifBytes is ++ rest) = some (is.map (fun i =>
      (i.interfaceClass.toNat, i.interfaceSubclass.toNat, i.interfaceProtocol.toNat)), rest) := by
  induction is with
  | nil => rfl
  | cons i is ih =>
    have e : ifBytes (i :: is) ++ rest =
        [i.interfaceClass, i.interfaceSubclass, i.interfaceProtocol, 0] ++ (ifBytes is ++ rest) := by
      simp [ifBytes]
    rw [e]
    simp only [List.length_cons, decodeIfs]
    rw [grab_append _ _ 4 rfl]
    simp only [Option.bind_eq_bind, Option.bind_some, ih]
    simp [skip8, field8]

theorem toBytesWithInterfaces_inv {p : Profile} {d : Device} {bs : Bytes}
    (h : d.toBytesWithInterfaces p = .ok bs) : bs = recordBytes d ++ ifBytes d.interfaces := by
  simp only [Device.toBytesWithInterfaces, Outcome.bind_eq_ok] at h
  obtain ⟨b, hb, h⟩ := h
  simp only [Outcome.pure_eq, Outcome.ok.injEq] at h
  rw [← h, toBytes_inv hb]; rfl

theorem decodeEntry_bytes (d : Device) (rest : Bytes) (hd : d.interfaces.length ≤ 255) :
    decodeEntry (recordBytes d ++ (ifBytes d.interfaces ++ rest))
      = some ((devInfo d, ifInfo d), rest) := by
  have : (devInfo d).numInterfaces = d.interfaces.length := by
    simp only [devInfo]; omega
  simp [decodeEntry, decodeDev_record, this, decodeIfs_bytes, ifInfo]

theorem decodeEntries_bytes {p : Profile} (ds : List Device) (bs rest : Bytes)
    (h : devlistBytes p ds = .ok bs) (hd : ∀ d ∈ ds, d.interfaces.length ≤ 255) :
    decodeEntries ds.length (bs ++ rest)
      = some (ds.map (fun d => (devInfo d, ifInfo d)), rest) := by
  induction ds generalizing bs with
  | nil =>
    simp only [devlistBytes, Outcome.ok.injEq] at h
    subst h; rfl
  | cons d ds ih =>
    simp only [devlistBytes, Outcome.bind_eq_ok] at h
    obtain ⟨b, hb, bs', hbs, h⟩ := h
    simp only [Outcome.pure_eq, Outcome.ok.injEq] at h
    subst h
    rw [toBytesWithInterfaces_inv hb]
    have hd1 := hd d (by simp)
    have ih' := ih bs' hbs (fun x hx => hd x (by simp [hx]))
    simp only [List.length_cons, decodeEntries, List.append_assoc,
      decodeEntry_bytes d _ hd1, Option.bind_eq_bind, Option.bind_some, ih']
    rfl

theorem decodeDevlist_bytes {p : Profile} (st n : UInt32) (ds : List Device) (bs rest : Bytes)
    (h : (Resp.repDevlist st n ds).toBytes p = .ok bs) (hr : Representable (.repDevlist st n ds)) :
    decodeDevlist (bs ++ rest) = some (replyInfo (.repDevlist st n ds), rest) := by
  simp only [Resp.toBytes, Outcome.bind_eq_ok] at h
  obtain ⟨b, hb, h⟩ := h
  simp only [Outcome.pure_eq, Outcome.ok.injEq] at h
  subst h
  have e : be16 USBIP_VERSION ++ be16 OP_REP_DEVLIST ++ be32 st ++ be32 n ++ b ++ rest =
      (be16 USBIP_VERSION ++ (be16 OP_REP_DEVLIST ++ (be32 st ++ (be32 n ++ [])))) ++ (b ++ rest) := by
    simp
  rw [e]
  simp only [decodeDevlist]
  rw [grab_append _ _ 12 (by simp)]
  simp only [Option.bind_eq_bind, Option.bind_some]
  simp only [Nat.sub_self, field32, Nat.reduceSub, skip32, skip16, field16,
    Nat.le_refl, Nat.reduceLeDiff]
  rw [if_pos ⟨rfl, rfl⟩, hr.1, decodeEntries_bytes ds b rest hb hr.2]
  rfl

theorem decodeImport_bytes {p : Profile} (st : UInt32) (d : Option Device) (bs rest : Bytes)
    (h : (Resp.repImport st d).toBytes p = .ok bs) (hr : Representable (.repImport st d)) :
    decodeImport (bs ++ rest) = some (replyInfo (.repImport st d), rest) := by
  simp only [Resp.toBytes, Outcome.bind_eq_ok] at h
  obtain ⟨b, hb, h⟩ := h
  simp only [Outcome.pure_eq, Outcome.ok.injEq] at h
  subst h
  have e : be16 USBIP_VERSION ++ be16 OP_REP_IMPORT ++ be32 st ++ b ++ rest =
      (be16 USBIP_VERSION ++ (be16 OP_REP_IMPORT ++ (be32 st ++ []))) ++ (b ++ rest) := by simp
  rw [e]
  simp only [decodeImport]
  rw [grab_append _ _ 8 (by simp)]
  simp only [Option.bind_eq_bind, Option.bind_some]
  simp only [Nat.sub_self, field32, Nat.reduceSub, skip16, field16,
    Nat.le_refl, Nat.reduceLeDiff]
  rw [if_pos ⟨rfl, rfl⟩]
  cases d with
  | none =>
    have hz : ¬ st.toNat = 0 := fun h0 => by simpa using hr.mp h0
    rw [if_neg hz]
    simp only [Outcome.ok.injEq] at hb
    subst hb
    rfl
  | some d =>
    have hz : st.toNat = 0 := hr.mpr rfl
    rw [if_pos hz, toBytes_inv hb, decodeDev_record]
    simp [replyInfo, hz]

/-- All four kinds. -/
theorem decodeReply_bytes {p : Profile} (r : Resp) (bs rest : Bytes)
    (h : r.toBytes p = .ok bs) (hr : Representable r) :
    match r with
    | .repDevlist .. => decodeDevlist (bs ++ rest) = some (replyInfo r, rest)
    | .repImport .. => decodeImport (bs ++ rest) = some (replyInfo r, rest)
    | .retSubmit .. => decodeSubmit (bs ++ rest) = some (replyInfo r, rest)
    | .retUnlink .. => decodeUnlink (bs ++ rest) = some (replyInfo r, rest) := by
  cases r with
  | repDevlist st n ds => exact decodeDevlist_bytes st n ds bs rest h hr
  | repImport st d => exact decodeImport_bytes st d bs rest h hr
  | retSubmit hd st al sf np ec buf iso =>
    simp only [Resp.toBytes, Outcome.bind_eq_ok] at h
    obtain ⟨_, _, _, _, h⟩ := h
    simp only [Outcome.pure_eq, Outcome.ok.injEq] at h
    subst h
    exact decodeSubmit_bytes hd st al sf np ec buf iso rest hr
  | retUnlink hd st =>
    simp only [Resp.toBytes, Outcome.bind_eq_ok] at h
    obtain ⟨_, _, h⟩ := h
    simp only [Outcome.pure_eq, Outcome.ok.injEq] at h
    subst h
    exact decodeUnlink_bytes hd st rest hr

end Usbip
