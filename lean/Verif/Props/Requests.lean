import Verif.Lemmas.Server
import Verif.Lemmas.Urb
import Verif.Props.Codec
import Verif.Props.Device
/-!
# What one request does: C07, C15, C25–C29, C32, C33, C51, C54, C55

The theorems speak about one iteration of a connection's loop (`Conn.iterate`): the connection `x`
has a request at the front of its input, and we look at the server and the connection afterwards.
-/

namespace Usbip
open Spec Samples

/-! ## C07 -/

/-- C07: if the connection survives a submit or unlink, what it sent begins with the request's
seqnum, devid, direction and endpoint under command code 3 respectively 4. -/
theorem C07_identity {σ} (env : Env σ) (p : Profile) (s : Shared σ) (x : Conn) (rest : Stream) :
    (∀ h a b c d e f g i, readCommand p x.input = .ok (.submit h a b c d e f g i, rest) →
      (x.iterate env p s .full).2.status = .running →
      ∃ bytes, 48 ≤ bytes.length ∧ (x.iterate env p s .full).2.output = x.output ++ bytes ∧
        readHdr bytes = ⟨3, h.seqnum.toNat, h.devid.toNat, h.direction.toNat, h.ep.toNat⟩) ∧
    (∀ h n, readCommand p x.input = .ok (.unlink h n, rest) →
      (x.iterate env p s .full).2.status = .running →
      ∃ bytes, bytes.length = 48 ∧ (x.iterate env p s .full).2.output = x.output ++ bytes ∧
        readHdr bytes = ⟨4, h.seqnum.toNat, h.devid.toNat, h.direction.toNat, h.ep.toNat⟩) := by
  have key : ∀ cmd, readCommand p x.input = .ok (cmd, rest) →
      (x.iterate env p s .full).2.status = .running →
      ∃ r bytes, Answers cmd r ∧ r.toBytes p = .ok bytes ∧
        (x.iterate env p s .full).2.output = x.output ++ bytes := by
    intro cmd hr hrun
    have h := iterate_res env p s x .full
    generalize (x.iterate env p s .full).1 = s' at h
    generalize (x.iterate env p s .full).2 = x' at h hrun ⊢
    cases h with
    | done e s' hr' hrel => rw [hr] at hr'; simp at hr'
    | missing e hr' hrel => simp at hrun
    | readPanic hr' => simp at hrun
    | answered cmd' rest' resp s' cur' bytes hr' hs hb hw =>
      rw [hr] at hr'
      simp only [Outcome.ok.injEq, Prod.mk.injEq] at hr'
      obtain ⟨rfl, rfl⟩ := hr'
      exact ⟨resp, bytes, serve_answers env p s x.current cmd resp (by rw [hs]), hb, rfl⟩
    | writeFailed cmd' rest' resp s' cur' bytes n e hr' hs hb hw => simp at hw
    | writeCut cmd' rest' resp s' cur' bytes n hr' hs hb hw => simp at hw
    | servePanic cmd' rest' hr' hs => simp at hrun
  refine ⟨?_, ?_⟩
  · intro h a b c d e f g i hr hrun
    obtain ⟨r, bytes, ha, hb, ho⟩ := key _ hr hrun
    refine ⟨bytes, ?_, ho, ?_⟩
    all_goals
      rcases ha with ⟨buf, rfl⟩ | rfl
      all_goals
        simp only [Resp.toBytes, Outcome.bind_eq_ok] at hb
        obtain ⟨_, _, _, _, hb⟩ := hb
        simp only [Outcome.pure_eq, Outcome.ok.injEq] at hb
        subst hb
    · simp; omega
    · simp
    · simp only [List.append_assoc]; rw [readHdr_header]; rfl
    · simp only [List.append_assoc]; rw [readHdr_header]; rfl
  · intro h n hr hrun
    obtain ⟨r, bytes, ha, hb, ho⟩ := key _ hr hrun
    cases ha
    simp only [Resp.toBytes, Outcome.bind_eq_ok] at hb
    obtain ⟨_, _, hb⟩ := hb
    simp only [Outcome.pure_eq, Outcome.ok.injEq] at hb
    subst hb
    refine ⟨_, ?_, ho, ?_⟩
    · simp
    · simp only [List.append_assoc]; rw [readHdr_header]; rfl

/-- C07 on the bytes: if the packet at the front of the input has code 1 or 2 and the connection
survives it, the reply starts with code 3 respectively 4 and then repeats the packet's 16 bytes of
seqnum, devid, direction and endpoint. -/
theorem C07_on_the_wire {σ} (env : Env σ) (p : Profile) (s : Shared σ) (x : Conn) (k : UInt8)
    (hk : k = 1 ∨ k = 2) (hc : (x.input.bytes.drop 2).take 2 = [0, k])
    (hrun : (x.iterate env p s .full).2.status = .running) :
    ∃ bytes, 48 ≤ bytes.length ∧ (x.iterate env p s .full).2.output = x.output ++ bytes ∧
      bytes.take 4 = [0, 0, 0, k + 2] ∧ (bytes.drop 4).take 16 = (x.input.bytes.drop 4).take 16 := by
  have h := iterate_res env p s x .full
  generalize (x.iterate env p s .full).1 = s' at h
  generalize (x.iterate env p s .full).2 = x' at h hrun ⊢
  cases h with
  | done e s' hr' hrel => dsimp only at hrun; split at hrun <;> simp at hrun
  | missing e hr' hrel => simp at hrun
  | readPanic hr' => simp at hrun
  | writeFailed cmd' rest' resp s' cur' bytes n e hr' hs hb hw => simp at hw
  | writeCut cmd' rest' resp s' cur' bytes n hr' hs hb hw => simp at hw
  | servePanic cmd' rest' hr' hs => simp at hrun
  | answered cmd rest resp s' cur' bytes hr hs hb hw =>
    have ha := serve_answers env p s x.current cmd resp (by rw [hs])
    obtain ⟨hwf, consumed, ⟨v, hv, hm⟩, hin⟩ := readCommand_inv hr
    rw [hin] at hc ⊢
    dsimp only at hc ⊢
    have hvl : ∃ a b, v = [a, b] := by
      simp only [List.mem_cons, List.not_mem_nil, or_false] at hv
      rcases hv with rfl | rfl <;> exact ⟨_, _, rfl⟩
    obtain ⟨v0, v1, rfl⟩ := hvl
    refine ⟨bytes, ?_⟩
    cases cmd with
    | reqDevlist st =>
      simp only at hm
      rw [hm, wireCmd, layout_cons, layout_cons] at hc
      rcases hk with rfl | rfl <;> simp [bigEndian] at hc
    | reqImport st b =>
      simp only at hm
      rw [hm, wireCmd, layout_cons, layout_cons] at hc
      rcases hk with rfl | rfl <;> simp [bigEndian] at hc
    | submit h a b c d e f g i =>
      simp only at hm
      rw [wire_submit, header_bytes] at hm
      have h1 : h.command = 1 := u32_ext (by rw [hwf.1]; rfl)
      have hk1 : k = 1 := by
        rw [hm, h1] at hc
        have hc : [(0 : UInt8), 1] = [0, k] := by simpa [be32] using hc
        simp only [List.cons.injEq, and_true, true_and] at hc
        exact hc.symm
      subst hk1
      rcases ha with ⟨buf, rfl⟩ | rfl
      all_goals
        simp only [Resp.toBytes, Outcome.bind_eq_ok] at hb
        obtain ⟨_, _, _, _, hb⟩ := hb
        simp only [Outcome.pure_eq, Outcome.ok.injEq] at hb
        subst hb
        refine ⟨by simp; try omega, rfl, ?_, ?_⟩
        · rw [header_bytes]; simp [be32]
        · rw [hm, header_bytes]; simp [be32]
    | unlink h n =>
      simp only at hm
      obtain ⟨pad, hpl, hm⟩ := hm
      rw [wire_unlink, header_bytes] at hm
      have h1 : h.command = 2 := u32_ext (by rw [hwf.1]; rfl)
      have hk1 : k = 2 := by
        rw [hm, h1] at hc
        have hc : [(0 : UInt8), 2] = [0, k] := by simpa [be32] using hc
        simp only [List.cons.injEq, and_true, true_and] at hc
        exact hc.symm
      subst hk1
      cases ha
      simp only [Resp.toBytes, Outcome.bind_eq_ok] at hb
      obtain ⟨_, _, hb⟩ := hb
      simp only [Outcome.pure_eq, Outcome.ok.injEq] at hb
      subst hb
      refine ⟨by simp, rfl, ?_, ?_⟩
      · rw [header_bytes]; simp [be32]
      · rw [hm, header_bytes]; simp [be32]

/-- A connection about to receive an unlink (seqnum 9). -/
def connUnlink : Conn := Conn.new ⟨wireCmd cmdUnlink, .unexpectedEof⟩

example : readCommand dev connUnlink.input = .ok (cmdUnlink, ⟨[], .unexpectedEof⟩) ∧
    (connUnlink.input.bytes.drop 2).take 2 = [0, 2] ∧
    (connUnlink.iterate Samples.env dev (Shared.newSimulated [devA] Samples.world) .full).2.status
      = .running := by decide

/-! ## C15 -/

/-- C15: a connection that has device `d` imported asks for string `i` which `d` does not define
(GET_DESCRIPTOR(string `i`), any language, any length): the server's state does not change, the
connection stays live with its device and goes on after that request, and the client decodes a
submit reply with status 1 and no data. -/
theorem C15_unknown_string {σ} (env : Env σ) (p : Profile) (s : Shared σ) (x : Conn) (rest : Stream)
    (id : Bytes) (d : Device) (h : Header) (a len b n c : UInt32) (data iso : Bytes)
    (i l0 l1 w0 w1 : UInt8)
    (hc : x.current = some id) (hd : amGet id s.used = some d) (h0 : Ep0 d)
    (hin : h.direction = 1) (hep : h.ep = 0) (hi : i ≠ 0) (hno : d.stringPool i = none)
    (hr : readCommand p x.input
      = .ok (.submit h a len b n c [0x80, 0x06, i, 0x03, l0, l1, w0, w1] data iso, rest)) :
    ∃ bytes served,
      x.iterate env p s .full = (s, { x with
        input := rest, output := x.output ++ bytes, served := served }) ∧
      ∀ more, decodeSubmit (bytes ++ more)
        = some (.submit ⟨3, h.seqnum.toNat, h.devid.toNat, 1, 0⟩ 1 0 0 0 0 [] [], more) := by
  obtain ⟨bytes, hb, hdec⟩ : ∃ bytes, (usbipRetSubmitFail { h with command := 3 }).toBytes p = .ok bytes ∧
      ∀ more, decodeSubmit (bytes ++ more) = some (.submit ⟨3, h.seqnum.toNat, h.devid.toNat,
        h.direction.toNat, h.ep.toNat⟩ 1 0 0 0 0 [] [], more) := by
    obtain ⟨bytes, hb, _⟩ := (C08_fail_and_unlink p h []).1
    refine ⟨bytes, hb, fun more => ?_⟩
    obtain ⟨bytes', hb', hdec⟩ := (C08_fail_and_unlink p h more).1
    rw [hb] at hb'
    simp only [Outcome.ok.injEq] at hb'
    rw [hb', hdec]
  have hserve : s.serve env p x.current
      (.submit h a len b n c [0x80, 0x06, i, 0x03, l0, l1, w0, w1] data iso)
      = (.ok (usbipRetSubmitFail { h with command := 3 }), s, x.current) := by
    have hfind : d.findEp 0x80 = some (d.ep0In, none) :=
      (C18_found d h0 0x80 _ _).mpr (Or.inl ⟨rfl, rfl, rfl⟩)
    have hurb : d.handleUrb env p d.ep0In none len
        (SetupPacket.parse [0x80, 0x06, i, 0x03, l0, l1, w0, w1]) data s.world
        = (.err .invalidInput, s.world) := by
      rw [handleUrb_get env p d d.ep0In none len _ data s.world h0.2.2.1
        (by rw [h0.1]; decide) rfl rfl]
      have hv : (SetupPacket.parse [0x80, 0x06, i, 0x03, l0, l1, w0, w1]).value
          = UInt16.ofNat ((3 : UInt8).toNat * 256 + i.toNat) := by
        apply u16_ext
        have := u8_lt i
        have h3 : (3 : UInt8).toNat = 3 := rfl
        simp only [SetupPacket.parse, le16_toNat, UInt16.toNat_ofNat']
        omega
      have h3 : DescriptorType.fromU16 ((SetupPacket.parse [0x80, 0x06, i, 0x03, l0, l1, w0, w1]).value >>> 8)
          = some .string := by
        rw [hv, setup_value_hi]; decide
      have hlo : (SetupPacket.parse [0x80, 0x06, i, 0x03, l0, l1, w0, w1]).value.toUInt8 = i := by
        rw [hv, setup_value_lo]
      unfold Device.getDescriptor
      simp only [h3, hlo, if_neg hi, hno]
    have hdir : (h.direction == 0) = false := by rw [hin]; decide
    have hreal : (h.ep ||| 0x80).toUInt8 = 0x80 := by rw [hep]; decide
    simp only [Shared.serve, hc, Option.bind_some, hd, Shared.submit, hdir]
    rw [if_neg (by decide), hreal, hfind]
    simp only [hurb]
    rfl
  refine ⟨bytes, ?_, ?_, ?_⟩
  rotate_left
  · exact iterate_answered env p s x _ rest _ s x.current bytes hr hserve hb
  · intro more
    rw [hdec more, hin, hep]; rfl

/-- Samples: the device `devA` imported, string 9 (undefined) asked for. -/
def sharedA : Shared Nat := ⟨[devB], [(devA.busId, devA)], Samples.world⟩
def cmdString9 : Cmd := .submit ⟨1, 5, 65538, 1, 0⟩ 0 255 0 0 0 [0x80, 6, 9, 3, 9, 4, 255, 0] [] []
def connString9 : Conn :=
  { Conn.new ⟨wireCmd cmdString9 ++ [1], .unexpectedEof⟩ with current := some devA.busId }

example : connString9.current = some devA.busId ∧ amGet devA.busId sharedA.used = some devA ∧
    Ep0 devA ∧ devA.stringPool 9 = none ∧
    readCommand dev connString9.input = .ok (cmdString9, ⟨[1], .unexpectedEof⟩) := by
  refine ⟨rfl, rfl, ⟨rfl, rfl, rfl, rfl⟩, rfl, by decide⟩

/-! ## C25 -/

/-- C25: an import that matches no available device leaves the whole server state as it was and
is answered with the 8 bytes version, code 3, status 1; the connection stays live. -/
theorem C25_refused {σ} (env : Env σ) (p : Profile) (s : Shared σ) (x : Conn) (rest : Stream)
    (st : UInt32) (busid : Bytes) (hr : readCommand p x.input = .ok (.reqImport st busid, rest))
    (hno : ∀ d ∈ s.available, d.busId ≠ cstr busid) :
    (x.iterate env p s .full).1 = s ∧
    (x.iterate env p s .full).2.output = x.output ++ [0x01, 0x11, 0, 3, 0, 0, 0, 1] ∧
    (x.iterate env p s .full).2.status = x.status ∧
    (x.iterate env p s .full).2.current = none := by
  have hs : s.serve env p x.current (.reqImport st busid) = (.ok opRepImportFail, s, none) := by
    simp only [Shared.serve, Shared.import, busidCompare_eq, takeFirst_none.mpr hno]
  rw [iterate_answered env p s x _ rest _ s none [0x01, 0x11, 0, 3, 0, 0, 0, 1] hr hs rfl]
  exact ⟨rfl, rfl, rfl, rfl⟩

example : (∀ d ∈ sharedA.available, d.busId ≠ cstr busA) ∧
    readCommand dev (Conn.new ⟨wireCmd (.reqImport 0 busA), .unexpectedEof⟩).input
      = .ok (.reqImport 0 busA, ⟨[], .unexpectedEof⟩) := by
  refine ⟨?_, by decide⟩
  intro d hd
  simp only [sharedA, List.mem_singleton] at hd
  subst hd
  decide

/-! ## C26 -/

/-- C26: the reply to a device list request, decoded by the client, lists exactly the available
devices with their fields and interfaces, in order; nothing on the server changes. -/
theorem C26_lists_available {σ} (env : Env σ) (p : Profile) (s : Shared σ) (x : Conn) (rest : Stream)
    (st : UInt32) (hr : readCommand p x.input = .ok (.reqDevlist st, rest))
    (hfit : p.debugAssertions = true → ∀ d ∈ s.available, d.path.length ≤ 256 ∧ d.busId.length ≤ 32)
    (hn : s.available.length < 4294967296) (hi : ∀ d ∈ s.available, d.interfaces.length ≤ 255) :
    ∃ bytes served,
      x.iterate env p s .full = (s, { x with
        input := rest, output := x.output ++ bytes, served := served }) ∧
      ∀ more, decodeDevlist (bytes ++ more)
        = some (.devlist 0 (s.available.map (fun d => (devInfo d, ifInfo d))), more) := by
  obtain ⟨bytes, hb⟩ := C09_devlist_serialises p s.available hfit
  refine ⟨bytes, ?_, ?_, ?_⟩
  rotate_left
  · exact iterate_answered env p s x _ rest (opRepDevlist s.available) s x.current bytes hr rfl hb
  · intro more
    exact C09_devlist_decodes p s.available bytes more hb hn hi

example : (∀ d ∈ sharedA.available, d.path.length ≤ 256 ∧ d.busId.length ≤ 32) ∧
    (∀ d ∈ sharedA.available, d.interfaces.length ≤ 255) ∧ sharedA.available ≠ [] ∧
    readCommand dev (Conn.new ⟨wireCmd (.reqDevlist 0), .unexpectedEof⟩).input
      = .ok (.reqDevlist 0, ⟨[], .unexpectedEof⟩) := by
  refine ⟨?_, ?_, by simp [sharedA], by decide⟩ <;>
  · intro d hd
    simp only [sharedA, List.mem_singleton] at hd
    subst hd
    decide

/-! ## C27 -/

/-- C27: with `d` the first available device whose bus id is the request's text up to the first
NUL, the import takes exactly `d` out of the available list, records it as imported under its bus
id, makes it the connection's device, and the client decodes a success describing `d`. -/
theorem C27_granted {σ} (env : Env σ) (p : Profile) (s : Shared σ) (x : Conn) (rest : Stream)
    (st : UInt32) (busid : Bytes) (l1 l2 : List Device) (d : Device)
    (hr : readCommand p x.input = .ok (.reqImport st busid, rest))
    (hs : s.available = l1 ++ d :: l2) (hd : d.busId = cstr busid)
    (hl : ∀ y ∈ l1, y.busId ≠ cstr busid)
    (hfit : p.debugAssertions = true → d.path.length ≤ 256 ∧ d.busId.length ≤ 32) :
    ∃ sh bytes served,
      x.iterate env p s .full = (sh, { x with
        input := rest, current := some d.busId, output := x.output ++ bytes, served := served }) ∧
      sh.available = l1 ++ l2 ∧ amGet d.busId sh.used = some d ∧
      (∀ id, id ≠ d.busId → amGet id sh.used = amGet id s.used) ∧ sh.world = s.world ∧
      ∀ more, decodeImport (bytes ++ more) = some (.import 0 (some (devInfo d)), more) := by
  have htake : takeFirst (busidCompare busid) s.available = some (d, l1 ++ l2) :=
    takeFirst_some.mpr ⟨l1, l2, hs, rfl, hd, hl⟩
  have hserve : s.serve env p x.current (.reqImport st busid) = (.ok (opRepImportSuccess d),
      { s with available := l1 ++ l2, used := amInsert d.busId d s.used }, some d.busId) := by
    simp only [Shared.serve, Shared.import, htake]
  obtain ⟨bytes, hb⟩ := import_reply_bytes p d hfit
  refine ⟨_, bytes, _, iterate_answered env p s x _ rest _ _ _ bytes hr hserve hb, rfl,
    amGet_insert_self, fun id hne => amGet_insert_ne hne, rfl, ?_⟩
  intro more
  exact decodeReply_bytes (opRepImportSuccess d) bytes more hb (by simp [Representable, opRepImportSuccess])

/-- C27: the request is granted if and only if such a device exists (granted: the connection has a
device afterwards). -/
theorem C27_iff {σ} (env : Env σ) (p : Profile) (s : Shared σ) (x : Conn) (rest : Stream)
    (st : UInt32) (busid : Bytes) (w : WriteRes)
    (hr : readCommand p x.input = .ok (.reqImport st busid, rest)) :
    ((x.iterate env p s w).2.current = some (cstr busid) ↔ ∃ d ∈ s.available, d.busId = cstr busid) ∧
    ((x.iterate env p s w).2.current = none ↔ ∀ d ∈ s.available, d.busId ≠ cstr busid) := by
  have hcur : (x.iterate env p s w).2.current = (s.serve env p x.current (.reqImport st busid)).2.2 := by
    have h := iterate_res env p s x w
    generalize (x.iterate env p s w).1 = s' at h
    generalize (x.iterate env p s w).2 = x' at h ⊢
    cases h with
    | done e s' hr' hrel => rw [hr] at hr'; simp at hr'
    | missing e hr' hrel => rw [hr] at hr'; simp at hr'
    | readPanic hr' => rw [hr] at hr'; simp at hr'
    | answered cmd' rest' resp s' cur' bytes hr' hs hb hw =>
      rw [hr] at hr'
      simp only [Outcome.ok.injEq, Prod.mk.injEq] at hr'
      obtain ⟨rfl, rfl⟩ := hr'
      rw [hs]
    | writeFailed cmd' rest' resp s' cur' bytes n e hr' hs hb hw =>
      rw [hr] at hr'
      simp only [Outcome.ok.injEq, Prod.mk.injEq] at hr'
      obtain ⟨rfl, rfl⟩ := hr'
      rw [hs]
    | writeCut cmd' rest' resp s' cur' bytes n hr' hs hb hw =>
      rw [hr] at hr'
      simp only [Outcome.ok.injEq, Prod.mk.injEq] at hr'
      obtain ⟨rfl, rfl⟩ := hr'
      rw [hs]
    | servePanic cmd' rest' hr' hs =>
      rw [hr] at hr'
      simp only [Outcome.ok.injEq, Prod.mk.injEq] at hr'
      obtain ⟨rfl, rfl⟩ := hr'
      rfl
  rw [hcur]
  rcases serve_effect env p s x.current (.reqImport st busid) with
    ⟨st', b', d, l1, l2, hc, hl, hd, hn, h⟩ | ⟨st', b', hc, hn, h⟩ | ⟨h, _⟩
  · simp only [Cmd.reqImport.injEq] at hc
    obtain ⟨rfl, rfl⟩ := hc
    rw [busidCompare_eq] at hd
    have hex : ∃ d ∈ s.available, d.busId = cstr busid := ⟨d, by rw [hl]; simp, hd⟩
    rw [h]
    refine ⟨⟨fun _ => hex, fun _ => by rw [hd]⟩, ⟨fun h => by simp at h, fun h => ?_⟩⟩
    obtain ⟨d, hm, he⟩ := hex
    exact absurd he (h d hm)
  · simp only [Cmd.reqImport.injEq] at hc
    obtain ⟨rfl, rfl⟩ := hc
    rw [h]
    refine ⟨⟨fun h => by simp at h, fun ⟨d, hm, he⟩ => absurd he (hn d hm)⟩, ⟨fun _ => hn, fun _ => rfl⟩⟩
  · simp [isImport] at h

example : sharedA.available = [] ++ devB :: [] ∧ devB.busId = cstr busB ∧
    devB.path.length ≤ 256 ∧ devB.busId.length ≤ 32 ∧
    readCommand dev (Conn.new ⟨wireCmd (.reqImport 0 busB), .unexpectedEof⟩).input
      = .ok (.reqImport 0 busB, ⟨[], .unexpectedEof⟩) := by
  refine ⟨rfl, by decide, by decide, by decide, by decide⟩

/-! ## C28 -/

/-- C28: `remove_device`, in any state. -/
theorem C28_remove {σ} (s : Shared σ) (id : Bytes) :
    (∀ l1 d l2, s.available = l1 ++ d :: l2 → d.busId = id → (∀ y ∈ l1, y.busId ≠ id) →
      s.removeDevice id = (.ok (), { s with available := l1 ++ l2 })) ∧
    ((∀ d ∈ s.available, d.busId ≠ id) → (∃ e ∈ s.used, e.2.busId = id) →
      s.removeDevice id = (.err .other, s)) ∧
    ((∀ d ∈ s.available, d.busId ≠ id) → (∀ e ∈ s.used, e.2.busId ≠ id) →
      s.removeDevice id = (.err .notFound, s)) ∧
    (s.removeDevice id).2.used = s.used ∧ (s.removeDevice id).2.world = s.world := by
  refine ⟨?_, ?_, ?_, ?_⟩
  · intro l1 d l2 hs hd hl
    unfold Shared.removeDevice
    rw [takeFirst_some.mpr ⟨l1, l2, hs, rfl, hd, hl⟩]
  · intro hno hu
    rcases removeDevice_cases s id with ⟨d, l1, l2, hl, hd, _, _⟩ | ⟨_, _, h⟩ | ⟨_, hn, _⟩
    · exact absurd hd (hno d (by rw [hl]; simp))
    · exact h
    · obtain ⟨e, he, hb⟩ := hu
      exact absurd hb (hn e he)
  · intro hno hu
    rcases removeDevice_cases s id with ⟨d, l1, l2, hl, hd, _, _⟩ | ⟨_, ⟨e, he, hb⟩, _⟩ | ⟨_, _, h⟩
    · exact absurd hd (hno d (by rw [hl]; simp))
    · exact absurd hb (hu e he)
    · exact h
  · rcases removeDevice_cases s id with ⟨d, l1, l2, _, _, _, h⟩ | ⟨_, _, h⟩ | ⟨_, _, h⟩ <;>
      rw [h] <;> exact ⟨rfl, rfl⟩

/-- All three cases occur: "1-2" is available, "1-1" imported, "0" unknown. -/
example : (sharedA.removeDevice devB.busId).1 = .ok () ∧
    (sharedA.removeDevice devA.busId).1 = .err .other ∧
    (sharedA.removeDevice [48]).1 = .err .notFound := by decide

/-! ## C29 -/

/-- C29: after `add_device d` the available list is the old one followed by `d`, and nothing else
changed.  An import of `d`'s bus id (at most 32 bytes, no NUL, in its padded field) by any
connection succeeds: the device taken has that bus id, and is `d` itself unless another one with
that bus id was available before. -/
theorem C29_added {σ} (env : Env σ) (p : Profile) (s : Shared σ) (d : Device) :
    (s.addDevice d).available = s.available ++ [d] ∧ (s.addDevice d).used = s.used ∧
    (s.addDevice d).world = s.world ∧
    ∀ (x : Conn) rest st busid, BusField busid d.busId →
      (p.debugAssertions = true → ∀ y ∈ s.available ++ [d], y.path.length ≤ 256) →
      readCommand p x.input = .ok (.reqImport st busid, rest) →
      ∃ d', d' ∈ s.available ++ [d] ∧ d'.busId = d.busId ∧
        ((∀ y ∈ s.available, y.busId ≠ d.busId) → d' = d) ∧
        amGet d.busId (x.iterate env p (s.addDevice d) .full).1.used = some d' ∧
        (x.iterate env p (s.addDevice d) .full).2.current = some d.busId ∧
        (x.iterate env p (s.addDevice d) .full).2.status = x.status ∧
        ∃ bytes, (x.iterate env p (s.addDevice d) .full).2.output = x.output ++ bytes ∧
          decodeImport bytes = some (.import 0 (some (devInfo d')), []) := by
  refine ⟨rfl, rfl, rfl, ?_⟩
  intro x rest st busid hbf hpath hr
  have hc := cstr_busField hbf
  cases ht : takeFirst d.busId (s.available ++ [d]) with
  | none => exact absurd rfl (takeFirst_none.mp ht d (by simp))
  | some r =>
    obtain ⟨d', rest'⟩ := r
    obtain ⟨l1, l2, hl, rfl, hd, hn⟩ := takeFirst_some.mp ht
    have hmem : d' ∈ s.available ++ [d] := by rw [hl]; simp
    obtain ⟨sh, bytes, served, hit, h1, h2, h3, h4, h5⟩ := C27_granted env p (s.addDevice d) x rest st busid
      l1 l2 d' hr hl (by rw [hc]; exact hd) (by rw [hc]; exact hn)
      (fun hp => ⟨hpath hp d' hmem, by rw [hd]; exact hbf.1⟩)
    refine ⟨d', hmem, hd, ?_, ?_, ?_, ?_, bytes, ?_, ?_⟩
    · intro hne
      rcases List.mem_append.mp hmem with h | h
      · exact absurd hd (hne d' h)
      · simpa using h
    · rw [hit]; rw [hd] at h2; exact h2
    · rw [hit, hd]
    · rw [hit]
    · rw [hit]
    · have := h5 []; rwa [List.append_nil] at this

example : BusField busA devA.busId ∧ (∀ y ∈ ([devB] : List Device), y.busId ≠ devA.busId) := by
  refine ⟨⟨by decide, by decide, rfl⟩, ?_⟩
  intro y hy
  simp only [List.mem_singleton] at hy
  subst hy; decide

/-! ## C32 -/

/-- C32: a submit on a connection whose device is not there (nothing imported, or the record of it
gone) panics the connection's task; no handler runs, nothing is sent, and the server's state,
handlers included, is exactly what it was. -/
theorem C32_no_device {σ} (env : Env σ) (p : Profile) (s : Shared σ) (x : Conn) (rest : Stream)
    (h : Header) (a b c d e : UInt32) (f g i : Bytes) (w : WriteRes)
    (hr : readCommand p x.input = .ok (.submit h a b c d e f g i, rest))
    (hno : ∀ id, x.current = some id → amGet id s.used = none) :
    x.iterate env p s w = (s, { x with input := rest, status := .panicked }) := by
  have hs : s.serve env p x.current (.submit h a b c d e f g i) = (.panic, s, x.current) := by
    simp only [Shared.serve]
    have : (x.current.bind fun id => amGet id s.used) = none := by
      cases hc : x.current with
      | none => rfl
      | some id => exact hno id hc
    rw [this]
  unfold Conn.iterate
  rw [hr]; simp only [hs]

/-- ... and nothing sent afterwards on that connection is ever read: its task is over. -/
theorem C32_over {σ} (env : Env σ) (p : Profile) (s : Sys σ) (c : Nat) (x : Conn) (w : WriteRes)
    (hx : s.conns c = some x) (hp : x.status = .panicked) : s.step env p (.iterate c w) = s := by
  simp only [Sys.step, hx, hp]
  rfl

example : (Conn.new ⟨wireCmd cmdGetDesc, .unexpectedEof⟩).current = none ∧
    readCommand dev (Conn.new ⟨wireCmd cmdGetDesc, .unexpectedEof⟩).input
      = .ok (cmdGetDesc, ⟨[], .unexpectedEof⟩) := by decide

/-! ## C33 -/

/-- C33: an unlink leaves the server's state (handlers included) and the connection's device
alone, the connection stays live, and the client decodes a reply with status 0.  (That every
earlier submit has been answered by then is `C33_all_answered` in `Verif.Props.Server`.) -/
theorem C33_unlink {σ} (env : Env σ) (p : Profile) (s : Shared σ) (x : Conn) (rest : Stream)
    (h : Header) (n : UInt32) (hr : readCommand p x.input = .ok (.unlink h n, rest)) :
    ∃ bytes served,
      x.iterate env p s .full = (s, { x with
        input := rest, output := x.output ++ bytes, served := served }) ∧
      ∀ more, decodeUnlink (bytes ++ more) = some (.unlink ⟨4, h.seqnum.toNat, h.devid.toNat,
        h.direction.toNat, h.ep.toNat⟩ 0, more) := by
  obtain ⟨bytes, hb, _⟩ := (C08_fail_and_unlink p h []).2.1
  refine ⟨bytes, ?_, ?_, ?_⟩
  rotate_left
  · exact iterate_answered env p s x _ rest _ s x.current bytes hr rfl hb
  · intro more
    obtain ⟨bytes', hb', hdec⟩ := (C08_fail_and_unlink p h more).2.1
    rw [hb] at hb'
    simp only [Outcome.ok.injEq] at hb'
    rw [hb', hdec]

example : readCommand release connUnlink.input = .ok (cmdUnlink, ⟨[], .unexpectedEof⟩) := by decide

/-! ## C57 -/

/-- What C57 is about: whatever submit is answered, for however many isochronous packets, the reply
says "0 packets" and consists of the 48-byte head and as many bytes of data as it announces: there
are no packet results. -/
theorem C57_no_results {σ} (env : Env σ) (p : Profile) (s : Shared σ) (x : Conn) (rest : Stream)
    (h : Header) (a len b n c : UInt32) (setup data iso : Bytes)
    (hr : readCommand p x.input = .ok (.submit h a len b n c setup data iso, rest))
    (hrun : (x.iterate env p s .full).2.status = .running) :
    ∃ bytes, (x.iterate env p s .full).2.output = x.output ++ bytes ∧ 48 ≤ bytes.length ∧
      field bytes 32 4 = 0 ∧ field bytes 24 4 = (bytes.length - 48) % 2 ^ 32 := by
  have h := iterate_res env p s x .full
  generalize (x.iterate env p s .full).1 = s' at h
  generalize (x.iterate env p s .full).2 = x' at h hrun ⊢
  cases h with
  | done e s' hr' hrel => rw [hr] at hr'; simp at hr'
  | missing e hr' hrel => simp at hrun
  | readPanic hr' => simp at hrun
  | answered cmd' rest' resp s' cur' bytes hr' hs hb hw =>
    rw [hr] at hr'
    simp only [Outcome.ok.injEq, Prod.mk.injEq] at hr'
    obtain ⟨rfl, rfl⟩ := hr'
    refine ⟨bytes, rfl, ?_⟩
    rcases serve_answers env p s x.current _ resp (by rw [hs]) with ⟨buf, rfl⟩ | rfl
    all_goals
      simp only [Resp.toBytes, Outcome.bind_eq_ok] at hb
      obtain ⟨_, _, _, _, hb⟩ := hb
      simp only [Outcome.pure_eq, Outcome.ok.injEq] at hb
      subst hb
      rw [header_bytes]
      simp only [List.append_assoc, skip32, field32, List.length_append, be32_length,
        List.length_replicate, Nat.reduceLeDiff, Nat.reduceSub]
    · refine ⟨by omega, rfl, ?_⟩
      rw [UInt32.toNat_ofNat']
      congr 1
      simp only [List.length_nil]
      omega
    · exact ⟨by simp, rfl, rfl⟩
  | writeFailed cmd' rest' resp s' cur' bytes n e hr' hs hb hw => simp at hw
  | writeCut cmd' rest' resp s' cur' bytes n hr' hs hb hw => simp at hw
  | servePanic cmd' rest' hr' hs => simp at hrun

/-- A connection that imports "1-1" and then asks for two isochronous packets. -/
def isoEvents : List (Event Nat) :=
  [.connect 0 ⟨wireCmd (.reqImport 0 busA) ++ wireCmd cmdIso, .unexpectedEof⟩,
   .iterate 0 .full, .iterate 0 .full]

set_option maxRecDepth 100000 in
/-- C57 is false: a submit for two isochronous packets is answered successfully and with no packet
result. -/
theorem C57_fails :
    ((((Sys.init [devA] Samples.world).run Samples.env dev isoEvents).conns 0).bind
      (fun x => decodeSubmit (x.output.drop 320))) =
    some (.submit ⟨3, 8, 65538, 1, 1⟩ 0 2 0 0 0 [0, 7] [], []) ∧ hasIso 2 := by decide

/-- C57 for submits that ask for no packets (what is missing: all others, see `C57_fails`): they are
answered with no packet results. -/
theorem C57_partial {σ} (env : Env σ) (p : Profile) (s : Shared σ) (x : Conn) (rest : Stream)
    (h : Header) (a len b n c : UInt32) (setup data iso : Bytes) (hn : n.toNat = 0)
    (hr : readCommand p x.input = .ok (.submit h a len b n c setup data iso, rest))
    (hrun : (x.iterate env p s .full).2.status = .running) :
    ∃ bytes, (x.iterate env p s .full).2.output = x.output ++ bytes ∧ 48 ≤ bytes.length ∧
      field bytes 32 4 = n.toNat ∧
      field bytes 24 4 = (bytes.length - 48 - 16 * n.toNat) % 2 ^ 32 := by
  rw [hn]
  exact C57_no_results env p s x rest h a len b n c setup data iso hr hrun

/-- C57, exactly: the reply to a submit announces the number of packets that was asked for if and only if that
number is 0. -/
theorem C57_when_partial {σ} (env : Env σ) (p : Profile) (s : Shared σ) (x : Conn) (rest : Stream)
    (h : Header) (a len b n c : UInt32) (setup data iso : Bytes)
    (hr : readCommand p x.input = .ok (.submit h a len b n c setup data iso, rest))
    (hrun : (x.iterate env p s .full).2.status = .running) :
    ∃ bytes, (x.iterate env p s .full).2.output = x.output ++ bytes ∧
      (field bytes 32 4 = n.toNat ↔ n.toNat = 0) := by
  obtain ⟨bytes, h1, _, h2, _⟩ := C57_no_results env p s x rest h a len b n c setup data iso hr hrun
  exact ⟨bytes, h1, by rw [h2]; exact eq_comm⟩

set_option maxRecDepth 100000 in
/-- The conditions of `C57_no_results` and `C57_when_partial`: the submit for two packets of `isoEvents`. -/
example : ∃ x rest, ((Sys.init [devA] Samples.world).run Samples.env dev (isoEvents.take 2)).conns 0 = some x ∧
    readCommand dev x.input = .ok (cmdIso, rest) ∧
    (x.iterate Samples.env dev ((Sys.init [devA] Samples.world).run Samples.env dev (isoEvents.take 2)).shared
      .full).2.status = .running :=
  ⟨_, _, rfl, rfl, rfl⟩

set_option maxRecDepth 100000 in
/-- The conditions of `C57_partial`: a submit without packets. -/
example : ∃ x rest, ((Sys.init [devA] Samples.world).run Samples.env dev
      [.connect 0 ⟨wireCmd (.reqImport 0 busA) ++ wireCmd (.submit ⟨1, 8, 65538, 1, 1⟩ 0 8 0 0 0 (List.replicate 8 0) [] []),
        .unexpectedEof⟩, .iterate 0 .full]).conns 0 = some x ∧
    readCommand dev x.input = .ok (.submit ⟨1, 8, 65538, 1, 1⟩ 0 8 0 0 0 (List.replicate 8 0) [] [], rest) ∧
    (x.iterate Samples.env dev ((Sys.init [devA] Samples.world).run Samples.env dev
      [.connect 0 ⟨wireCmd (.reqImport 0 busA), .unexpectedEof⟩, .iterate 0 .full]).shared .full).2.status = .running :=
  ⟨_, _, rfl, rfl, rfl⟩

end Usbip
