import Verif.Lemmas.Owned
import Verif.Spec.Loop
import Verif.Props.Programs
/-! Helper lemmas: the devices of the example programs. -/

namespace Usbip
open Spec

/-- The keyboard's endpoint. -/
def keyEndpoint : Endpoint := ⟨0x81, 3, 8, 10⟩

theorem keyboard_shape {p : Profile} {kbd : Device} (hk : exampleKeyboard p = .ok kbd) :
    ∃ f, kbd.interfaces = [f] ∧ f.handler = 0 ∧ f.endpoints = [keyEndpoint] ∧ kbd.ep0In = ⟨0x80, 0, 64, 0⟩ ∧
      kbd.ep0Out = ⟨0, 0, 64, 0⟩ ∧ kbd.deviceHandler = none ∧ kbd.busId = ascii "0-0-0" ∧ (configBytes kbd).length = 34 ∧
      (∀ i s, kbd.stringPool i = some s → (stringBlock s).length ≤ 255) := by
  have key : ∀ pool : UInt8 → Option Str,
      (∀ n, n < 256 → (match pool (UInt8.ofNat n) with | some s => decide ((stringBlock s).length ≤ 255) | none => true) = true) →
      ∀ i s, pool i = some s → (stringBlock s).length ≤ 255 := by
    intro pool h i s hs
    have := h i.toNat i.toNat_lt
    rw [show UInt8.ofNat i.toNat = i by simp, hs] at this
    exact of_decide_eq_true this
  rcases p with ⟨_ | _, _ | _⟩ <;>
    (cases hk; exact ⟨_, rfl, rfl, rfl, rfl, rfl, rfl, by decide +kernel, by decide +kernel, key _ (by decide +kernel)⟩)

theorem keyboard_endpoint {p : Profile} {kbd : Device} (hk : exampleKeyboard p = .ok kbd) : ∃ f, kbd.interfaces = [f] ∧ f.handler = 0 ∧
    ∀ a : UInt8, endpointAt kbd a = if a.toNat = 128 then some (⟨0x80, 0, 64, 0⟩, none) else if a.toNat = 0 then some (⟨0, 0, 64, 0⟩, none)
      else if a.toNat = 129 then some (keyEndpoint, some f) else none := by
  obtain ⟨f, h1, h2, h3, h4, h5, _⟩ := keyboard_shape hk
  refine ⟨f, h1, h2, fun a => ?_⟩
  have eq : ∀ b : UInt8, (b == a) = decide (a.toNat = b.toNat) := by
    intro b
    rw [Bool.eq_iff_iff, beq_iff_eq, decide_eq_true_iff]
    exact ⟨fun h => by rw [h], fun h => u8_ext h.symm⟩
  unfold endpointAt
  simp only [h1, h3, h4, h5, List.flatMap_cons, List.flatMap_nil, List.map_cons, List.map_nil, List.append_nil, List.find?_cons, eq,
    List.find?_nil, keyEndpoint]
  rw [show (0x80 : UInt8).toNat = 128 from rfl, show (0 : UInt8).toNat = 0 from rfl, show (0x81 : UInt8).toNat = 129 from rfl]
  by_cases a1 : a.toNat = 128
  · simp [a1]
  · by_cases a2 : a.toNat = 0
    · simp [a2]
    · by_cases a3 : a.toNat = 129
      · simp [a3]
      · simp [a1, a2, a3]

/-- Where a transfer goes. -/
theorem urb_address (dev : Device) (devid seq : UInt32) (u : Urb) (hn : u.ep.toNat < 16) :
    (Job.address ⟨dev, ⟨1, seq, devid, if u.input then 1 else 0, u.ep⟩, u.len, u.setup, u.data⟩).toNat =
      u.ep.toNat + if u.input then 128 else 0 := by
  unfold Job.address
  dsimp only
  cases u.input
  · simp only [Bool.false_eq_true, if_false]
    rw [if_pos (by decide), UInt8.toNat_ofNat']; omega
  · simp only [if_true]
    rw [if_neg (by decide), UInt8.toNat_ofNat']; omega

theorem keyboardObj_descriptor (ep : Endpoint) (st : SetupPacket) (b : Keyboard) :
    (keyboardObj ep st b).2.reportDescriptor = b.reportDescriptor := by
  unfold keyboardObj Keyboard.handleUrb
  split
  · split
    · split <;> rfl
    · split <;> rfl
  · split
    · split
      · rfl
      · split <;> rfl
    · rfl

theorem keyboard_says (b : Keyboard) (hb : b.reportDescriptor = Keyboard.new.reportDescriptor) (ep : Endpoint) (st : SetupPacket) {bs : Bytes}
    (h : (keyboardObj ep st b).1 = .ok bs) :
    (ep.isEp0 = true ∧ st.requestType.toNat = 0x81 ∧ st.request.toNat = 6 ∧ bs = Keyboard.new.reportDescriptor) ∨
    (ep.isEp0 = true ∧ bs = []) ∨ (ep.isEp0 = false ∧ bs.length ≤ 8) := by
  unfold keyboardObj Keyboard.handleUrb at h
  split at h
  · rename_i h0
    split at h
    · rename_i h1
      split at h
      · cases h
        exact .inl ⟨h0, by rw [h1.1]; rfl, by rw [h1.2]; rfl, hb⟩
      · cases h
    · split at h
      · cases h; exact .inr (.inl ⟨h0, rfl⟩)
      · cases h
  · rename_i h0
    refine .inr (.inr ⟨by simpa using h0, ?_⟩)
    split at h
    · split at h
      · cases h; simp
      · split at h
        · cases h; simp
        · cases h; simp
    · cases h; simp

theorem atMost_le {n : Nat} {b : Bytes} (h : b.length < 65536) : (atMost n b).length ≤ n := by
  unfold atMost
  rw [Nat.mod_eq_of_lt h]
  split
  · simp; omega
  · omega

theorem keyboard_descriptors {p : Profile} {kbd : Device} (hk : exampleKeyboard p = .ok kbd) {t i : Nat} {b : Bytes}
    (h : descriptorOf kbd t i = some b) : b.length < 65536 := by
  obtain ⟨_, _, _, _, _, _, _, _, h1, h2⟩ := keyboard_shape hk
  unfold descriptorOf at h
  split at h
  · cases h; simp [deviceBlock, le]
  · split at h
    · cases h; omega
    · split at h
      · split at h
        · cases h; simp
        · cases hs : kbd.stringPool (UInt8.ofNat i) with
          | none => rw [hs] at h; cases h
          | some s => rw [hs] at h; cases h; have := h2 _ _ hs; omega
      · split at h
        · cases h; simp [qualifierBlock]
        · split at h
          · cases h; simp [bosBlock, le]
          · cases h; simp

/-- The answers of the keyboard fit what a host asks for. -/
theorem keyboard_fits {σ} {env : Env σ} {p : Profile} {kbd : Device} (hk : exampleKeyboard p = .ok kbd) {u : Urb} {devid seq : UInt32}
    {resp : Resp} {bytes : Bytes} (hfrom : FromDev env p kbd (u.cmd devid seq, resp))
    (hsp : ∀ x, loggedFor (reachedBy kbd (ofIface 0) id) (u.cmd devid seq, resp, bytes) = some x →
      ∃ b : Keyboard, b.reportDescriptor = Keyboard.new.reportDescriptor ∧ replied (x.1, (keyboardObj x.1.1 x.1.2 b).1) = some x)
    (hn : u.ep.toNat < 16)
    (hi : u.input = true → u.ep.toNat = 0 → u.len.toNat = (setupAt u.setup).length.toNat)
    (ho : u.input = false → u.ep.toNat = 0 → (setupAt u.setup).requestType.toNat < 128 ∧
      ((setupAt u.setup).requestType.toNat = 0 → (setupAt u.setup).request.toNat = 9 → (setupAt u.setup).length.toNat = 0))
    (hp : u.reads 1 = true → 8 ≤ u.len.toNat)
    (hr : u.input = true → u.ep.toNat = 0 → (setupAt u.setup).requestType.toNat = 0x81 → (setupAt u.setup).request.toNat = 6 →
      45 ≤ u.len.toNat) : Fits (u.cmd devid seq) resp ∧ Modest resp := by
  obtain ⟨f, h1, h2, h3⟩ := keyboard_endpoint hk
  have hnone : kbd.deviceHandler = none := by
    obtain ⟨_, _, _, _, _, _, h, _⟩ := keyboard_shape hk
    exact h
  have addr := urb_address kbd devid seq u hn
  simp only [Urb.cmd] at hfrom hsp ⊢
  -- what has to be shown of the data
  have done : ∀ (st : UInt32) (l : UInt32) (buf : Bytes),
      (u.input = true → buf.length ≤ u.len.toNat ∧ buf.length < 2 ^ 31) → (u.input = false → buf = []) →
      Fits (.submit ⟨1, seq, devid, if u.input then 1 else 0, u.ep⟩ u.flags u.len u.startFrame u.packets u.interval u.setup u.data u.iso)
        (.retSubmit ⟨3, seq, devid, if u.input then 1 else 0, u.ep⟩ st l 0 0 0 buf []) ∧
      Modest (.retSubmit ⟨3, seq, devid, if u.input then 1 else 0, u.ep⟩ st l 0 0 0 buf []) := by
    intro st l buf a1 a2
    simp only [Fits, Modest]
    cases hu : u.input with
    | true =>
      obtain ⟨b1, b2⟩ := a1 hu
      simp only [if_true]
      rw [if_pos (by decide)]
      exact ⟨⟨b1, b2⟩, b2, .inl (by decide)⟩
    | false =>
      rw [a2 hu]
      simp
  have fail := done 1 0 [] (fun _ => ⟨by simp, by simp⟩) (fun _ => rfl)
  unfold FromDev AnsweredBy at hfrom
  dsimp only at hfrom
  -- an answer of the handler
  have byHandler : ∀ (i : Iface) ep l st dt, Job.call ⟨kbd, ⟨1, seq, devid, if u.input then 1 else 0, u.ep⟩, u.len, u.setup, u.data⟩ =
      some (.iface 0 i ep l st dt) → ∀ (s0 l' : UInt32) (buf : Bytes), resp = .retSubmit ⟨3, seq, devid, if u.input then 1 else 0, u.ep⟩ s0 l' 0 0 0 buf [] →
      buf = [] ∨ ∃ b : Keyboard, b.reportDescriptor = Keyboard.new.reportDescriptor ∧ (keyboardObj ep st b).1 = .ok buf := by
    intro i ep l st dt hc s0 l' buf hr'
    subst hr'
    obtain ⟨b, hb, hx⟩ := hsp ((ep, st), s0.toNat, buf) (by
      simp only [loggedFor, outcome, reachedBy, hc, Option.bind_some, ofIface, if_true, Option.map_some, id])
    dsimp only at hx
    cases hk' : (keyboardObj ep st b).1 with
    | panic => rw [hk'] at hx; cases hx
    | err x =>
      rw [hk'] at hx
      injection hx with hx; injection hx with _ hx; injection hx with _ hx
      exact .inl hx.symm
    | ok x =>
      rw [hk'] at hx
      injection hx with hx; injection hx with _ hx; injection hx with _ hx
      exact .inr ⟨b, hb, by rw [hk', hx]⟩
  -- the data, if the transfer has an endpoint
  have cases : ∀ ep owner, endpointAt kbd (Job.address ⟨kbd, ⟨1, seq, devid, if u.input then 1 else 0, u.ep⟩, u.len, u.setup, u.data⟩) = some (ep, owner) →
      (∀ call, addressee kbd ep owner u.len (setupAt u.setup) u.data = some call → ∃ i l dt, call = .iface 0 i ep l (setupAt u.setup) dt) →
      (∀ buf, (∃ b : Keyboard, b.reportDescriptor = Keyboard.new.reportDescriptor ∧ (keyboardObj ep (setupAt u.setup) b).1 = .ok buf) →
        (u.input = true → buf.length ≤ u.len.toNat ∧ buf.length < 2 ^ 31) ∧ (u.input = false → buf = [])) →
      (ep.attributes.toNat = 0 → standard ep (setupAt u.setup) → 128 ≤ ep.address.toNat →
        u.input = true ∧ u.len.toNat = (setupAt u.setup).length.toNat) →
      (ep.attributes.toNat = 0 → standard ep (setupAt u.setup) → ¬ 128 ≤ ep.address.toNat →
        (setupAt u.setup).length.toNat = 0) →
      Fits (.submit ⟨1, seq, devid, if u.input then 1 else 0, u.ep⟩ u.flags u.len u.startFrame u.packets u.interval u.setup u.data u.iso) resp ∧
        Modest resp := by
    intro ep owner hE hcall hsays hstd hset
    rw [hE] at hfrom
    obtain ⟨w, hw⟩ := hfrom
    have hjob : Job.call ⟨kbd, ⟨1, seq, devid, if u.input then 1 else 0, u.ep⟩, u.len, u.setup, u.data⟩ =
        addressee kbd ep owner u.len (setupAt u.setup) u.data := by
      unfold Job.call
      dsimp only
      rw [hE]
    cases hadd : addressee kbd ep owner u.len (setupAt u.setup) u.data with
    | some call =>
      obtain ⟨i, l, dt, rfl⟩ := hcall call hadd
      rw [hadd] at hjob
      split at hw
      · rename_i bs _
        subst hw
        rcases byHandler i ep l _ dt hjob _ _ _ rfl with rfl | hb
        · exact done _ _ _ (fun _ => ⟨by simp, by simp⟩) (fun _ => rfl)
        · exact done _ _ _ (hsays _ hb).1 (hsays _ hb).2
      · subst hw; exact fail
      · exact hw.elim
    | none =>
      unfold said at hw
      rw [hadd] at hw
      dsimp only at hw
      by_cases hs : ep.attributes.toNat = 0 ∧ standard ep (setupAt u.setup)
      · rw [if_pos hs] at hw
        by_cases ha : 128 ≤ ep.address.toNat
        · rw [if_pos ha] at hw
          obtain ⟨hin, hlen⟩ := hstd hs.1 hs.2 ha
          split at hw
          · rename_i bs hd
            subst hw
            have : bs.length ≤ (setupAt u.setup).length.toNat := by
              split at hd
              · cases hd
              · split at hd
                · rename_i b hdesc
                  cases hd
                  exact atMost_le (keyboard_descriptors hk hdesc)
                · cases hd
            have hlt := UInt16.toNat_lt (setupAt u.setup).length
            exact done _ _ _ (fun _ => ⟨by omega, by omega⟩) (fun h => by rw [hin] at h; cases h)
          · subst hw; exact fail
          · exact hw.elim
        · rw [if_neg ha] at hw
          dsimp only at hw
          subst hw
          have hz := hset hs.1 hs.2 ha
          rw [hz]
          exact done _ _ _ (fun _ => ⟨by simp [atMost], by simp [atMost]⟩) (fun _ => by simp [atMost])
      · rw [if_neg hs] at hw
        exact hw.elim
  have iface : ∀ ep, ep.attributes.toNat = 0 → ∀ call, addressee kbd ep none u.len (setupAt u.setup) u.data = some call →
      ∃ i l dt, call = .iface 0 i ep l (setupAt u.setup) dt := by
    intro ep h0 call hc
    unfold addressee at hc
    rw [if_pos h0] at hc
    split at hc
    · cases hc
    · split at hc
      · rw [h1] at hc
        cases hg : ([f] : List Iface)[(setupAt u.setup).index.toNat % 256]? with
        | none => rw [hg] at hc; cases hc
        | some g =>
          rw [hg] at hc
          have : g = f := by
            have := List.mem_of_getElem? hg
            simpa using this
          subst this
          cases hc
          exact ⟨g, _, _, by dsimp only; rw [h2]⟩
      · split at hc
        · rw [hnone] at hc; cases hc
        · cases hc
  rw [h3] at cases
  by_cases a1 : u.input = true ∧ u.ep.toNat = 0
  · have ha : (Job.address ⟨kbd, ⟨1, seq, devid, if u.input then 1 else 0, u.ep⟩, u.len, u.setup, u.data⟩).toNat = 128 := by
      rw [addr, a1.1, a1.2]; rfl
    refine cases _ _ (by rw [if_pos ha]) (iface _ rfl) (fun buf hb => ⟨fun hin => ?_, fun h => by rw [a1.1] at h; cases h⟩)
      (fun _ _ _ => ⟨a1.1, hi a1.1 a1.2⟩) (fun _ _ h => absurd (by decide) h)
    obtain ⟨b, hb1, hb2⟩ := hb
    rcases keyboard_says b hb1 _ _ hb2 with ⟨_, r1, r2, rfl⟩ | ⟨_, rfl⟩ | ⟨r0, _⟩
    · have := hr a1.1 a1.2 r1 r2
      have hl : Keyboard.new.reportDescriptor.length = 45 := by decide
      exact ⟨by omega, by omega⟩
    · exact ⟨by simp, by simp⟩
    · exact absurd r0 (by decide)
  · by_cases a2 : u.input = false ∧ u.ep.toNat = 0
    · have ha : (Job.address ⟨kbd, ⟨1, seq, devid, if u.input then 1 else 0, u.ep⟩, u.len, u.setup, u.data⟩).toNat = 0 := by
        rw [addr, a2.1, a2.2]; rfl
      refine cases _ _ (by rw [if_neg (by omega), if_pos ha]) (iface _ rfl)
        (fun buf hb => ⟨fun hin => (by rw [a2.1] at hin; cases hin), fun _ => ?_⟩)
        (fun _ _ h => absurd h (by decide)) (fun _ hs _ => ?_)
      · obtain ⟨b, hb1, hb2⟩ := hb
        rcases keyboard_says b hb1 _ _ hb2 with ⟨_, r1, r2, rfl⟩ | ⟨_, h⟩ | ⟨r0, _⟩
        · have := (ho a2.1 a2.2).1
          omega
        · exact h
        · exact absurd r0 (by decide)
      · rcases hs with hs | hs
        · exact absurd hs.1 (by decide)
        · exact (ho a2.1 a2.2).2 hs.2.1 hs.2.2
    · by_cases a3 : u.input = true ∧ u.ep.toNat = 1
      · have ha : (Job.address ⟨kbd, ⟨1, seq, devid, if u.input then 1 else 0, u.ep⟩, u.len, u.setup, u.data⟩).toNat = 129 := by
          rw [addr, a3.1, a3.2]; rfl
        refine cases _ _ (by rw [if_neg (by omega), if_neg (by omega), if_pos ha]) (fun call hc => ?_)
          (fun buf hb => ⟨fun hin => ?_, fun h => by rw [a3.1] at h; cases h⟩)
          (fun h => absurd h (by decide)) (fun h => absurd h (by decide))
        · unfold addressee at hc
          rw [if_neg (by decide), if_pos (by decide)] at hc
          cases hc
          exact ⟨f, _, _, by dsimp only; rw [h2]⟩
        · obtain ⟨b, hb1, hb2⟩ := hb
          have hp' := hp (by unfold Urb.reads; rw [a3.1, a3.2]; rfl)
          rcases keyboard_says b hb1 _ _ hb2 with ⟨r0, _⟩ | ⟨r0, _⟩ | ⟨_, h⟩
          · exact absurd r0 (by decide)
          · exact absurd r0 (by decide)
          · exact ⟨by omega, by omega⟩
      · have : endpointAt kbd (Job.address ⟨kbd, ⟨1, seq, devid, if u.input then 1 else 0, u.ep⟩, u.len, u.setup, u.data⟩) = none := by
          rw [h3]
          cases hu : u.input with
          | true =>
            rw [hu] at addr a1 a3
            simp only [if_true, true_and] at addr a1 a3
            simp only [if_true]
            rw [if_neg (by omega), if_neg (by omega), if_neg (by omega)]
          | false =>
            rw [hu] at addr a2
            simp only [Bool.false_eq_true, if_false, true_and] at addr a2
            simp only [Bool.false_eq_true, if_false]
            rw [if_neg (by omega), if_neg (by omega), if_neg (by omega)]
        rw [this] at hfrom
        dsimp only at hfrom
        subst hfrom
        exact fail

theorem addressee_endpoint {d : Device} {ep : Endpoint} {owner : Option Iface} {len : UInt32} {st : SetupPacket} {data : Bytes}
    {h : Nat} {i : Iface} {ep' : Endpoint} {l : UInt32} {st' : SetupPacket} {dt : Bytes}
    (hc : addressee d ep owner len st data = some (.iface h i ep' l st' dt)) : ep' = ep := by
  unfold addressee at hc
  split at hc
  · split at hc
    · cases hc
    · split at hc
      · obtain ⟨x, _, hx⟩ := Option.map_eq_some_iff.mp hc
        cases hx; rfl
      · split at hc
        · obtain ⟨x, _, hx⟩ := Option.map_eq_some_iff.mp hc
          cases hx
        · cases hc
  · split at hc
    · obtain ⟨x, _, hx⟩ := Option.map_eq_some_iff.mp hc
      cases hx; rfl
    · cases hc

theorem reached_endpoint {dev : Device} {h : Nat} {u : Urb} {devid seq : UInt32} {ep : Endpoint}
    (hr : reached dev h (u.cmd devid seq) = some ep) : ∃ owner,
    endpointAt dev (Job.address ⟨dev, ⟨1, seq, devid, if u.input then 1 else 0, u.ep⟩, u.len, u.setup, u.data⟩) = some (ep, owner) := by
  unfold reached Urb.cmd at hr
  dsimp only at hr
  split at hr
  · rename_i call h' i ep' l st dt hc
    split at hr
    · cases hr
      unfold Job.call at hc
      dsimp only at hc
      split at hc
      · rename_i e0 ow hE
        have := addressee_endpoint hc
        subst this
        exact ⟨ow, hE⟩
      · cases hc
    · cases hr
  · cases hr

/-- The transfers that poll the keyboard. -/
theorem keyboard_reached {p : Profile} {kbd : Device} (hk : exampleKeyboard p = .ok kbd) (u : Urb) (devid seq : UInt32)
    (hn : u.ep.toNat < 16) : (∃ ep, reached kbd 0 (u.cmd devid seq) = some ep ∧ DataIn ep) ↔ u.reads 1 = true := by
  obtain ⟨f, h1, h2, h3⟩ := keyboard_endpoint hk
  have addr := urb_address kbd devid seq u hn
  have hreads : u.reads 1 = true ↔ u.input = true ∧ u.ep.toNat = 1 := by
    unfold Urb.reads; rw [Bool.and_eq_true, beq_iff_eq]
  rw [hreads]
  constructor
  · rintro ⟨ep, hr, hd⟩
    obtain ⟨ow, hE⟩ := reached_endpoint hr
    rw [h3] at hE
    revert hE addr
    generalize (Job.address ⟨kbd, ⟨1, seq, devid, if u.input then 1 else 0, u.ep⟩, u.len, u.setup, u.data⟩).toNat = A
    intro addr hE
    split at hE
    · cases hE
      exact absurd hd (by decide)
    · split at hE
      · cases hE
        exact absurd hd (by decide)
      · split at hE
        · rename_i hA
          rw [hA] at addr
          cases hu : u.input with
          | true => rw [hu] at addr; simp only [if_true] at addr; exact ⟨rfl, by omega⟩
          | false => rw [hu] at addr; simp only [Bool.false_eq_true, if_false] at addr; omega
        · cases hE
  · rintro ⟨a1, a2⟩
    rw [a1, a2] at addr
    simp only [if_true] at addr
    unfold reached Urb.cmd Job.call
    dsimp only
    rw [h3, a1]
    simp only [if_true]
    rw [if_neg (by omega), if_neg (by omega), if_pos (by omega)]
    refine ⟨keyEndpoint, ?_, by decide⟩
    dsimp only
    unfold addressee
    rw [if_neg (by decide), if_pos (by decide)]
    dsimp only [Option.map_some]
    rw [if_pos h2]

/-! ## The serial port -/

theorem serial_endpoint {p : Profile} {ser : Device} (hk : exampleSerial p = .ok ser) : ser.busId = ascii "0-0-0" ∧
    ∃ f, ser.interfaces = [f] ∧ f.handler = 0 ∧
    ∀ a : UInt8, endpointAt ser a = if a.toNat = 128 then some (⟨0x80, 0, 64, 0⟩, none) else if a.toNat = 0 then some (⟨0, 0, 64, 0⟩, none)
      else if a.toNat = 129 then some (⟨0x81, 3, 8, 10⟩, some f) else if a.toNat = 130 then some (⟨0x82, 2, 512, 0⟩, some f)
      else if a.toNat = 2 then some (⟨2, 2, 512, 0⟩, some f) else none := by
  obtain ⟨f, h0, h1, h2, h3, h4, h5⟩ : ∃ f, ser.busId = ascii "0-0-0" ∧ ser.interfaces = [f] ∧ f.handler = 0 ∧ f.endpoints = Cdc.endpoints ∧
      ser.ep0In = ⟨0x80, 0, 64, 0⟩ ∧ ser.ep0Out = ⟨0, 0, 64, 0⟩ := by
    rcases p with ⟨_ | _, _ | _⟩ <;> (cases hk; exact ⟨_, by decide +kernel, rfl, rfl, rfl, rfl, rfl⟩)
  refine ⟨h0, f, h1, h2, fun a => ?_⟩
  have eq : ∀ b : UInt8, (b == a) = decide (a.toNat = b.toNat) := by
    intro b
    rw [Bool.eq_iff_iff, beq_iff_eq, decide_eq_true_iff]
    exact ⟨fun h => by rw [h], fun h => u8_ext h.symm⟩
  unfold endpointAt
  simp only [h1, h3, h4, h5, List.flatMap_cons, List.flatMap_nil, List.map_cons, List.map_nil, List.append_nil, List.find?_cons, eq,
    List.find?_nil, Cdc.endpoints]
  rw [show (0x80 : UInt8).toNat = 128 from rfl, show (0 : UInt8).toNat = 0 from rfl, show (0x81 : UInt8).toNat = 129 from rfl,
    show (0x82 : UInt8).toNat = 130 from rfl, show (0x02 : UInt8).toNat = 2 from rfl]
  by_cases a1 : a.toNat = 128
  · simp [a1]
  · by_cases a2 : a.toNat = 0
    · simp [a2]
    · by_cases a3 : a.toNat = 129
      · simp [a3]; rfl
      · by_cases a4 : a.toNat = 130
        · simp [a4]; rfl
        · by_cases a5 : a.toNat = 2
          · simp [a5]; rfl
          · simp [a1, a2, a3, a4, a5]

theorem serial_reached {p : Profile} {ser : Device} (hk : exampleSerial p = .ok ser) (u : Urb) (devid seq : UInt32)
    (hn : u.ep.toNat < 16) (hc : u.input = true → u.ep.toNat = 0 → (setupAt u.setup).requestType.toNat % 16 ≠ 1) :
    ((∃ ep, reached ser 0 (u.cmd devid seq) = some ep ∧ BulkIn ep) ↔ u.reads 2 = true) ∧
    ∀ ep, reached ser 0 (u.cmd devid seq) = some ep → ep.attributes.toNat = 2 ∨ ep.attributes.toNat = 3 ∨ ep.address.toNat < 128 := by
  obtain ⟨_, f, h1, h2, h3⟩ := serial_endpoint hk
  have addr := urb_address ser devid seq u hn
  have hreads : u.reads 2 = true ↔ u.input = true ∧ u.ep.toNat = 2 := by
    unfold Urb.reads; rw [Bool.and_eq_true, beq_iff_eq]
  have key : ∀ ep, reached ser 0 (u.cmd devid seq) = some ep →
      (u.input = true ∧ u.ep.toNat = 2 ∧ ep = ⟨0x82, 2, 512, 0⟩) ∨ (¬ BulkIn ep ∧ ¬ (u.input = true ∧ u.ep.toNat = 2) ∧
        (ep.attributes.toNat = 2 ∨ ep.attributes.toNat = 3 ∨ ep.address.toNat < 128)) := by
    intro ep hr
    obtain ⟨ow, hE⟩ := reached_endpoint hr
    have hE0 := hE
    rw [h3] at hE
    have nb : ∀ {x : Bool} {n : Nat}, ¬ ((x = true ∧ n = 2)) ↔ (x = true → n ≠ 2) := by intro x n; exact not_and
    rw [nb]
    revert hE addr
    generalize hA : (Job.address ⟨ser, ⟨1, seq, devid, if u.input then 1 else 0, u.ep⟩, u.len, u.setup, u.data⟩).toNat = A
    intro addr hE
    split at hE
    · exfalso
      have hin : u.input = true ∧ u.ep.toNat = 0 := by
        cases hu : u.input with
        | true => rw [hu] at addr; simp only [if_true] at addr; exact ⟨rfl, by omega⟩
        | false => rw [hu] at addr; simp only [Bool.false_eq_true, if_false] at addr; omega
      injection hE with hE
      injection hE with q1 q2
      subst q1; subst q2
      unfold reached Urb.cmd Job.call at hr
      dsimp only at hr
      rw [hE0] at hr
      dsimp only at hr
      unfold addressee at hr
      rw [if_pos (by decide), if_neg (c := (setupAt u.setup).requestType.toNat % 16 = 1) (hc hin.1 hin.2)] at hr
      split at hr
      · rename_i hq
        split at hq
        · cases hq
        · split at hq
          · obtain ⟨x, _, hx⟩ := Option.map_eq_some_iff.mp hq
            cases hx
          · cases hq
      · cases hr
    · split at hE
      · injection hE with hE
        injection hE with q1 q2
        subst q1
        exact .inr ⟨by decide, fun hi hp => by rw [hi] at addr; simp only [if_true] at addr; omega, .inr (.inr (by decide))⟩
      · split at hE
        · injection hE with hE
          injection hE with q1 q2
          subst q1
          exact .inr ⟨by decide, fun hi hp => by rw [hi] at addr; simp only [if_true] at addr; omega, .inr (.inl (by decide))⟩
        · split at hE
          · injection hE with hE
            injection hE with q1 q2
            subst q1
            have hin : u.input = true ∧ u.ep.toNat = 2 := by
              cases hu : u.input with
              | true => rw [hu] at addr; simp only [if_true] at addr; exact ⟨rfl, by omega⟩
              | false => rw [hu] at addr; simp only [Bool.false_eq_true, if_false] at addr; omega
            exact .inl ⟨hin.1, hin.2, rfl⟩
          · split at hE
            · injection hE with hE
              injection hE with q1 q2
              subst q1
              exact .inr ⟨by decide, fun hi hp => by rw [hi] at addr; simp only [if_true] at addr; omega, .inr (.inr (by decide))⟩
            · cases hE
  rw [hreads]
  refine ⟨⟨?_, ?_⟩, fun ep hr => ?_⟩
  · rintro ⟨ep, hr, hd⟩
    rcases key ep hr with h | h
    · exact ⟨h.1, h.2.1⟩
    · exact absurd hd h.1
  · rintro ⟨a1, a2⟩
    rw [a1, a2] at addr
    simp only [if_true] at addr
    unfold reached Urb.cmd Job.call
    dsimp only
    rw [h3, a1]
    simp only [if_true]
    rw [if_neg (by omega), if_neg (by omega), if_neg (by omega), if_pos (by omega)]
    refine ⟨⟨0x82, 2, 512, 0⟩, ?_, by decide⟩
    dsimp only
    unfold addressee
    rw [if_neg (by decide), if_pos (by decide)]
    dsimp only [Option.map_some]
    rw [if_pos h2]
  · rcases key ep hr with ⟨_, _, rfl⟩ | h
    · exact .inl (by decide)
    · exact h.2.2

/-- Transfers asked for, by what they reach. -/
theorem wanted_asked {dev : Device} (h : Nat) (good : Endpoint → Bool) (k : Nat) (d : Driver)
    (hr : ∀ q ∈ d.issued, (∃ ep, reached dev h (q.2.cmd d.devid q.1) = some ep ∧ good ep = true) ↔ q.2.reads k = true) :
    (wanted dev h d).countP good = d.asked k := by
  unfold wanted Driver.asked
  generalize d.issued = l at hr
  induction l with
  | nil => rfl
  | cons q l ih =>
    have h := hr q (List.mem_cons_self ..)
    have ih := ih (fun q hq => hr q (List.mem_cons_of_mem _ hq))
    rw [List.filterMap_cons, List.countP_cons, ← ih]
    cases hr : reached dev _ (q.2.cmd d.devid q.1) with
    | none =>
      rw [if_neg]; rfl
      intro hh
      obtain ⟨ep, he, _⟩ := h.mpr hh
      rw [hr] at he; cases he
    | some ep =>
      dsimp only
      rw [List.countP_cons]
      congr 1
      have : good ep = q.2.reads k := by
        rw [Bool.eq_iff_iff, ← h, hr]
        exact ⟨fun hd => ⟨ep, rfl, hd⟩, fun ⟨e, he, hd⟩ => by cases he; exact hd⟩
      rw [this]

/-- Data given back, by what it was given back for. -/
theorem given_got {dev : Device} (h : Nat) (good : Endpoint → Bool) (k : Nat) (d : Driver)
    (hr : ∀ g ∈ d.done, (∃ ep, reached dev h (g.urb.cmd d.devid g.seq) = some ep ∧ good ep = true) ↔ g.urb.reads k = true) :
    ((givenBack dev h d).filter (fun r => good r.1)).map (·.2) = d.got k := by
  unfold givenBack Driver.got
  generalize d.done = l at hr
  induction l with
  | nil => rfl
  | cons g l ih =>
    have h := hr g (List.mem_cons_self ..)
    have ih := ih (fun q hq => hr q (List.mem_cons_of_mem _ hq))
    rw [List.filterMap_cons, List.filter_cons]
    cases hr : reached dev _ (g.urb.cmd d.devid g.seq) with
    | none =>
      rw [if_neg, ← ih]; rfl
      intro hh
      obtain ⟨ep, he, _⟩ := h.mpr hh
      rw [hr] at he; cases he
    | some ep =>
      dsimp only [Option.map_some]
      rw [List.filter_cons]
      have : good ep = g.urb.reads k := by
        rw [Bool.eq_iff_iff, ← h, hr]
        exact ⟨fun hd => ⟨ep, rfl, hd⟩, fun ⟨e, he, hd⟩ => by cases he; exact hd⟩
      dsimp only
      rw [this]
      cases g.urb.reads k with
      | true => simp only [if_true, List.map_cons, ih]
      | false => simp only [Bool.false_eq_true, if_false, ih]

theorem keyboard_wanted {p : Profile} {kbd : Device} (hk : exampleKeyboard p = .ok kbd) (d : Driver)
    (hn : ∀ q ∈ d.issued, q.2.ep.toNat < 16) : (wanted kbd 0 d).countP (fun ep => decide (DataIn ep)) = d.asked 1 :=
  wanted_asked 0 _ 1 d fun q hq => by
    simp only [decide_eq_true_iff]
    exact keyboard_reached hk q.2 d.devid q.1 (hn q hq)

theorem keyboard_got {p : Profile} {kbd : Device} (hk : exampleKeyboard p = .ok kbd) (d : Driver)
    (hn : ∀ g ∈ d.done, g.urb.ep.toNat < 16) : reportsRead kbd 0 d = (d.got 1).filter (fun b => !b.isEmpty) := by
  unfold reportsRead
  rw [given_got 0 (fun ep => decide (DataIn ep)) 1 d fun q hq => by
    simp only [decide_eq_true_iff]
    exact keyboard_reached hk q.urb d.devid q.seq (hn q hq)]

end Usbip
