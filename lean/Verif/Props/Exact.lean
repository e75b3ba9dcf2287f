import Verif.Props.Memory
import Verif.Props.Trace
/-!
# Exactly when (C38, C40, C50)

Three properties that are false of the code, with the exact conditions under which they hold.
-/

namespace Usbip
open Spec Samples

/-! ## C38 -/

theorem script_get (up : Bytes) (evs : List KeyReport) : ∀ n b, (script up evs)[n]? = some b →
    (n % 2 = 0 → ∃ r, b = keyDownReport r) ∧ (n % 2 = 1 → b = up) := by
  induction evs with
  | nil => intro n b h; simp [script] at h
  | cons r evs ih =>
    intro n b h
    have hs : script up (r :: evs) = keyDownReport r :: up :: script up evs := by simp [script]
    rw [hs] at h
    match n with
    | 0 =>
      simp only [List.getElem?_cons_zero, Option.some.injEq] at h
      exact ⟨fun _ => ⟨r, h.symm⟩, fun k => by omega⟩
    | 1 =>
      simp only [List.getElem?_cons_succ, List.getElem?_cons_zero, Option.some.injEq] at h
      exact ⟨fun k => by omega, fun _ => h.symm⟩
    | n + 2 =>
      simp only [List.getElem?_cons_succ] at h
      obtain ⟨h1, h2⟩ := ih n b h
      exact ⟨fun k => h1 (by omega), fun k => h2 (by omega)⟩

/-- C38, exactly: of the reports a new keyboard delivers, every second one (the key-up reports) has the
wrong size, and only those.  What is missing for C38 is that. -/
theorem C38_when_partial (ops : List KOp) (n : Nat) (b : Bytes)
    (h : (((typeAndPoll Keyboard.new ops).1.map HRes.bytes).filter (fun b => !b.isEmpty))[n]? = some b) :
    8 * b.length = inputBits 100 0 0 0 Keyboard.new.reportDescriptor ↔ n % 2 = 0 := by
  obtain ⟨m, hm⟩ := C36_fifo ops
  rw [hm, List.getElem?_take] at h
  split at h
  · obtain ⟨h1, h2⟩ := script_get _ _ n b h
    rw [C38_declared]
    rcases Nat.mod_two_eq_zero_or_one n with hn | hn
    · obtain ⟨r, rfl⟩ := h1 hn
      simp [keyDownReport, hn]
    · rw [h2 hn, hn]
      decide
  · simp at h

/-- Two keys, polled five times: reports of 8, 6, 8 and 6 bytes, then nothing. -/
example : (((typeAndPoll Keyboard.new [.push k1, .push k2, poll, poll, poll, poll, poll]).1.map HRes.bytes).filter
    (fun b => !b.isEmpty)).map List.length = [8, 6, 8, 6] := by decide

/-! ## C40 -/

/-- Invoking another handler leaves the object as it is. -/
theorem invoke_elsewhere {σ τ} (obj : Endpoint → SetupPacket → τ → HRes × τ) (h : Nat) (env : Env σ)
    (w : World (σ × τ)) (c : HCall) (hc : c.target ≠ .iface h) :
    ((hosting obj h env).invoke w c).2.user.2 = w.user.2 := by
  cases c with
  | iface h' i e l s d =>
    have hne : h' ≠ h := fun k => hc (by rw [k]; rfl)
    simp only [Env.invoke, hosting, if_neg hne]
    split
    · rfl
    · split <;> rfl
  | dev h' l s d =>
    simp only [Env.invoke, hosting]
    split
    · rfl
    · split <;> rfl

/-- C40, exactly, for a device with the serial object as interface handler number `h` among arbitrary others: a
control request takes data out of a serial buffer that is not empty exactly if it comes in on an IN endpoint, its
recipient is an interface and the object is that interface's handler (and has not crashed); then the client gets
everything that was buffered, and it is gone.  What is missing for C40 is that. -/
theorem C40_when_partial {σ} (env : Env σ) (h : Nat) (p : Profile) (d : Device) (ep : Endpoint)
    (intf : Option Iface) (len : UInt32) (setup : SetupPacket) (data : Bytes) (w : World (σ × Cdc))
    (hc : ep.attributes.toNat = 0) (hw : w.user.2.txBuffer ≠ []) :
    ((d.handleUrb (hosting serialObj h env) p ep intf len setup data w).2.user.2 ≠ w.user.2 ↔
      128 ≤ ep.address.toNat ∧ setup.requestType.toNat % 16 = 1 ∧ w.ifPoisoned h = false ∧
      d.interfaces[setup.index.toNat % 256]?.map (·.handler) = some h) ∧
    ((d.handleUrb (hosting serialObj h env) p ep intf len setup data w).2.user.2 ≠ w.user.2 →
      (d.handleUrb (hosting serialObj h env) p ep intf len setup data w).1 = .ok w.user.2.txBuffer ∧
      (d.handleUrb (hosting serialObj h env) p ep intf len setup data w).2.user.2.txBuffer = []) := by
  rw [handleUrb_addressee]
  unfold addressee
  rw [if_pos hc]
  have same : ∀ x : Outcome Bytes × World (σ × Cdc), x.2.user.2 = w.user.2 →
      ¬ (128 ≤ ep.address.toNat ∧ setup.requestType.toNat % 16 = 1 ∧ w.ifPoisoned h = false ∧
        d.interfaces[setup.index.toNat % 256]?.map (·.handler) = some h) →
      (x.2.user.2 ≠ w.user.2 ↔
        128 ≤ ep.address.toNat ∧ setup.requestType.toNat % 16 = 1 ∧ w.ifPoisoned h = false ∧
        d.interfaces[setup.index.toNat % 256]?.map (·.handler) = some h) ∧
      (x.2.user.2 ≠ w.user.2 → x.1 = .ok w.user.2.txBuffer ∧ x.2.user.2.txBuffer = []) :=
    fun x hx hn => ⟨⟨fun k => absurd hx k, fun k => absurd k hn⟩, fun k => absurd hx k⟩
  by_cases h1 : setup.requestType.toNat % 16 = 1
  · have hs : ¬ standard ep setup := by
      unfold standard
      omega
    rw [if_neg hs, if_pos h1]
    cases hi : d.interfaces[setup.index.toNat % 256]? with
    | none =>
      rw [hi] at same
      simp only [Option.map_none]
      rw [if_neg (fun k => hs k.2)]
      exact same _ rfl (by simp)
    | some i =>
      rw [hi] at same
      simp only [Option.map_some]
      by_cases hh : i.handler = h
      · subst hh
        by_cases hp : w.ifPoisoned i.handler = true
        · exact same _ (by simp [Env.invoke, hp]) (by simp [hp])
        · have hp' : w.ifPoisoned i.handler = false := by simpa using hp
          by_cases hd : 128 ≤ ep.address.toNat
          · have e := C40_fails w.user.2 ep hc hd
            have hx : (hosting serialObj i.handler env).invoke w (.iface i.handler i ep len setup data) =
                (.ok w.user.2.txBuffer, { w with user := (w.user.1, ⟨[]⟩) }) := by
              simp [Env.invoke, hp', hosting, serialObj, e, HRes.toOutcome]
            rw [hx]
            have hne : (⟨[]⟩ : Cdc) ≠ w.user.2 := fun k => hw (by rw [← k])
            exact ⟨⟨fun _ => ⟨hd, h1, hp', rfl⟩, fun _ => hne⟩, fun _ => ⟨rfl, rfl⟩⟩
          · have e := C40_control_out_partial w.user.2 ep hc (by omega)
            refine same _ ?_ (fun k => hd k.1)
            simp [Env.invoke, hp', hosting, serialObj, e]
      · refine same _ (invoke_elsewhere _ _ _ _ _ ?_) (by simp [hh])
        simp [HCall.target, hh]
  · by_cases hs : standard ep setup
    · rw [if_pos hs]
      simp only
      rw [if_pos ⟨hc, hs⟩]
      exact same _ rfl (fun k => h1 k.2.1)
    · rw [if_neg hs, if_neg h1]
      by_cases h0 : setup.requestType.toNat % 16 = 0
      · rw [if_pos h0]
        cases d.deviceHandler with
        | none =>
          simp only [Option.map_none]
          rw [if_neg (fun k => hs k.2)]
          exact same _ rfl (fun k => h1 k.2.1)
        | some g =>
          simp only [Option.map_some]
          exact same _ (invoke_elsewhere _ _ _ _ _ (by simp [HCall.target])) (fun k => h1 k.2.1)
      · rw [if_neg h0]
        simp only
        rw [if_neg (fun k => hs k.2)]
        exact same _ rfl (fun k => h1 k.2.1)

/-- GET_LINE_CODING (class request 0x21 to interface 0) on the serial example's device, with "hi" buffered: the client
is given "hi" as its line coding. -/
example (p : Profile) (d : Device) (hd : exampleSerial p = .ok d) :
    d.handleUrb (hosting serialObj 0 noHandlers) p d.ep0In none 7 ⟨0xA1, 0x21, 0, 0, 7⟩ []
      ⟨((), ⟨[104, 105]⟩), fun _ => false, fun _ => false⟩ =
    (.ok [104, 105], ⟨((), ⟨[]⟩), fun _ => false, fun _ => false⟩) := by
  obtain ⟨a, b⟩ := p
  cases a <;> cases b <;> cases hd <;> rfl

/-! ## C50 -/

/-- C50, exactly, for a client that has sent the 48 bytes of a submit request and `rest`: what the server has
reserved is at most `K` more than what it has received exactly if the request announces no more than that.  Only
the announcement of packets that follow a payload still to come is not believed yet. -/
theorem C50_when_partial (p : Profile) (h : Header) (flags len start npkts interval : UInt32)
    (setup rest : Bytes) (fin : ErrKind) (K : Nat) (hc : h.command.toNat = 1)
    (hd : p.debugAssertions = true → h.direction.toNat ≤ 1) (hs : setup.length = 8) :
    ReservesAtMost p (K + (submitStart h flags len start npkts interval setup ++ rest).length)
      (submitStart h flags len start npkts interval setup ++ rest) fin ↔
    (if h.direction.toNat = 1 then 0 else len.toNat) +
      (if hasIso npkts ∧ (h.direction.toNat = 1 ∨ len.toNat ≤ rest.length) then 16 * npkts.toNat else 0)
      ≤ K + rest.length := by
  have hl : (submitStart h flags len start npkts interval setup ++ rest).length = 48 + rest.length := by
    rw [submitStart_eq _ _ _ _ _ _ _ _ hc]
    simp only [List.length_append, be16_length, be32_length, hs]
    omega
  unfold ReservesAtMost
  rw [hl, submitStart_eq _ _ _ _ _ _ _ _ hc,
    quota_submit p 0 (Or.inl rfl) h flags len start npkts interval setup rest fin _ (by omega) hd hs hc]
  have iso : ∀ (q : Quota) (k : Bytes → Cmd), q.used ≤ q.limit →
      (((if npkts ≠ 0 ∧ npkts ≠ 0xFFFFFFFF then readExact (16 * npkts.toNat) else pure [] : Rd Quota Bytes) >>=
        fun b => (pure (k b) : Rd Quota Cmd)) q ≠ .diverge ↔
      q.used + (if hasIso npkts then 16 * npkts.toNat else 0) ≤ q.limit) := by
    intro q k hq
    rw [rd_bind]
    by_cases hi : hasIso npkts
    · rw [if_pos ((hasIso_iff npkts).2 hi), if_pos hi]
      change (Quota.readExact _ q >>= _) ≠ _ ↔ _
      unfold Quota.readExact
      split
      · split <;> simp_all [Bind.bind, Outcome.bind]
      · simp_all [Bind.bind, Outcome.bind]
    · rw [if_neg (fun k => hi ((hasIso_iff npkts).1 k)), if_neg hi]
      simp [hq]
  simp only [readTail]
  by_cases hdir : h.direction.toNat = 1
  · rw [if_pos ((dirIn_iff _).2 hdir), if_pos hdir, rd_pure_bind, iso _ _ (by dsimp only; omega)]
    simp only [hdir, true_or, and_true]
    omega
  · rw [if_neg (fun k => hdir ((dirIn_iff _).1 k)), if_neg hdir, rd_bind]
    change (Quota.readExact _ _ >>= _) ≠ _ ↔ _
    unfold Quota.readExact
    dsimp only
    by_cases h1 : 48 + len.toNat ≤ K + (48 + rest.length)
    · rw [if_pos h1]
      by_cases h2 : len.toNat ≤ rest.length
      · rw [if_pos h2, Outcome.bind_ok, iso _ _ (by dsimp only; omega)]
        simp only [hdir, h2, or_true, and_true]
        omega
      · rw [if_neg h2]
        simp only [hdir, h2, or_self, and_false, if_false]
        constructor
        · intro _; omega
        · intro _; simp [Bind.bind, Outcome.bind]
    · rw [if_neg h1]
      constructor
      · intro k; exact absurd rfl k
      · intro k; omega

/-- An OUT request for 100 bytes with 4 isochronous packets, of whose payload 10 bytes are there: 100 bytes are
reserved, 90 more than received. -/
example (p : Profile) (fin : ErrKind) (K : Nat) :
    ReservesAtMost p (K + (submitStart ⟨1, 1, 1, 0, 1⟩ 0 100 0 4 0 [0, 0, 0, 0, 0, 0, 0, 0] ++ List.replicate 10 7).length)
      (submitStart ⟨1, 1, 1, 0, 1⟩ 0 100 0 4 0 [0, 0, 0, 0, 0, 0, 0, 0] ++ List.replicate 10 7) fin ↔ 90 ≤ K := by
  rw [C50_when_partial p _ _ _ _ _ _ _ _ fin K rfl (by simp) rfl]
  simp

end Usbip
