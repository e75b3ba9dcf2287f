import Verif.Spec.Limits
import Verif.Props.Host
import Verif.Props.Trace
/-!
# Replies and the length a client asked for: C41 over histories
-/

namespace Usbip
open Spec Samples

theorem job_sent {σ} (env : Env σ) (p : Profile) (s : Sys σ) (c : Nat) (w : WriteRes) (j : Job)
    (hj : job p s c = some j) :
    newlySent s (s.step env p (.iterate c w)) c
      = wired p w (s.shared.submit env p j.device j.header j.len j.setup j.data).1 ∧
    ∀ y, (s.step env p (.iterate c w)).conns c = some y → y.status = .running →
      ∃ r b, (s.shared.submit env p j.device j.header j.len j.setup j.data).1 = .ok r ∧ r.toBytes p = .ok b := by
  unfold job at hj
  cases hx : s.conns c with
  | none => rw [hx] at hj; simp at hj
  | some x =>
    rw [hx] at hj
    dsimp only at hj
    by_cases hr : x.status = .running
    case neg => rw [if_neg hr] at hj; simp at hj
    rw [if_pos hr] at hj
    have hstep : s.step env p (.iterate c w)
        = { shared := (x.iterate env p s.shared w).1
            conns := setConn s.conns c (x.iterate env p s.shared w).2 } := by
      simp only [Sys.step, hx, if_pos hr]
    split at hj
    · rename_i header a len b n c' setup data iso rest hc
      rw [hstep, iterate_finish env p s.shared x w _ rest hc]
      cases hd : x.current.bind (fun id => amGet id s.shared.used) with
      | none => rw [hd] at hj; simp at hj
      | some d =>
        rw [hd] at hj
        simp only [Option.map_some, Option.some.injEq] at hj
        subst hj
        have hsv : (s.shared.serve env p x.current (.submit header a len b n c' setup data iso)).1
            = (s.shared.submit env p d header len setup data).1 := by
          simp only [Shared.serve, hd]
        refine ⟨?_, ?_⟩
        · simp only [newlySent, hx, setConn, if_true, finish_output, List.drop_left, hsv]
        · intro y hy hrun
          simp only [setConn, if_true, Option.some.injEq] at hy
          subst hy
          rw [hsv] at hrun
          dsimp only
          cases ho : (s.shared.submit env p d header len setup data).1 with
          | ok r =>
            rw [ho] at hrun
            simp only [Conn.finish] at hrun
            cases hb : r.toBytes p with
            | ok bs => exact ⟨r, bs, rfl, hb⟩
            | _ => rw [hb] at hrun; simp at hrun
          | _ => rw [ho] at hrun; simp [Conn.finish] at hrun
    · simp at hj

/-- The reply of a submit in terms of what the device says. -/
theorem submit_reply {σ} (env : Env σ) (p : Profile) (s : Shared σ) (j : Job) :
    match (s.submit env p j.device j.header j.len j.setup j.data).1 with
    | .ok r => ∀ b, r.toBytes p = .ok b → b.length = 48 + (j.reply env p s.world).length ∧
        b.drop 48 = j.reply env p s.world
    | _ => True := by
  have hdr : ∀ h : Header, h.toBytes.length = 20 := Header.toBytes_length
  have hfail : ∀ h : Header, ∀ b, (usbipRetSubmitFail h).toBytes p = .ok b → b.length = 48 + ([] : Bytes).length ∧ b.drop 48 = [] := by
    intro h b hb
    simp only [usbipRetSubmitFail, Resp.toBytes, Outcome.bind_eq_ok] at hb
    obtain ⟨_, _, _, _, hb⟩ := hb
    simp only [Outcome.pure_eq, Outcome.ok.injEq] at hb
    subst hb
    refine ⟨by simp, List.drop_of_length_le (by simp)⟩
  have hsucc : ∀ (h : Header) (d : Bytes), ∀ b, (usbipRetSubmitSuccess h 0 0 d []).toBytes p = .ok b →
      b.length = 48 + d.length ∧ b.drop 48 = d := by
    intro h d b hb
    simp only [usbipRetSubmitSuccess, Resp.toBytes, Outcome.bind_eq_ok] at hb
    obtain ⟨_, _, _, _, hb⟩ := hb
    simp only [Outcome.pure_eq, Outcome.ok.injEq] at hb
    subst hb
    rw [List.append_nil]
    refine ⟨?_, ?_⟩
    · rw [List.length_append]; simp
    · exact List.drop_left' (by simp)
  unfold Job.reply
  cases hf : endpointAt j.device j.address with
  | none => rw [submit_missing env p s j hf]; exact hfail _
  | some r =>
    obtain ⟨ep, owner⟩ := r
    rw [submit_eq env p s j ep owner hf]
    dsimp only
    have hS := (handleUrb_said env p j.device ep owner j.len (setupAt j.setup) j.data s.world).1
    cases hs : (said env p j.device ep owner j.len (setupAt j.setup) j.data s.world).1 with
    | data b => rw [hs, Said.Is] at hS; rw [hS]; exact hsucc _ _
    | failure => rw [hs, Said.Is] at hS; obtain ⟨e, hS⟩ := hS; rw [hS]; exact hfail _
    | crash => rw [hs, Said.Is] at hS; rw [hS]; trivial

/-- A reply is within the limit exactly if the handler's, or the descriptor's part, is; unless the task crashes. -/
theorem reply_within {σ} (env : Env σ) (p : Profile) (w : World σ) (j : Job) :
    (j.Within env w → (j.reply env p w).length ≤ j.len.toNat) ∧
    ((j.reply env p w).length ≤ j.len.toNat →
      (∀ ep owner, endpointAt j.device j.address = some (ep, owner) →
        (said env p j.device ep owner j.len (setupAt j.setup) j.data w).1 ≠ .crash) → j.Within env w) := by
  have hat : ∀ (n : Nat) (f : Bytes) (l : Nat), (atMost n f).length ≤ l ↔ if n < f.length % 65536 then n ≤ l else f.length ≤ l := by
    intro n f l
    unfold atMost
    split
    · rename_i h
      rw [List.length_take]
      have := Nat.mod_le f.length 65536
      rw [Nat.min_eq_left (by omega)]
    · rfl
  unfold Job.Within Job.reply
  cases hf : endpointAt j.device j.address with
  | none => exact ⟨fun _ => by simp, fun _ _ _ _ h => by simp at h⟩
  | some r =>
    obtain ⟨ep, owner⟩ := r
    suffices core : ((match addressee j.device ep owner j.len (setupAt j.setup) j.data with
        | some c => ∀ b, (c.answer env w.user).1 = .ok b → b.length ≤ j.len.toNat
        | none => ∀ f,
          (if 128 ≤ ep.address.toNat then
            descriptorOf j.device ((setupAt j.setup).value.toNat / 256) ((setupAt j.setup).value.toNat % 256)
           else some [j.device.configurationValue]) = some f →
          if (setupAt j.setup).length.toNat < f.length % 65536 then (setupAt j.setup).length.toNat ≤ j.len.toNat
          else f.length ≤ j.len.toNat) →
        List.length (match (said env p j.device ep owner j.len (setupAt j.setup) j.data w).1 with
          | .data b => b
          | _ => []) ≤ j.len.toNat) ∧
        (List.length (match (said env p j.device ep owner j.len (setupAt j.setup) j.data w).1 with
          | .data b => b
          | _ => []) ≤ j.len.toNat →
        (said env p j.device ep owner j.len (setupAt j.setup) j.data w).1 ≠ .crash →
        (match addressee j.device ep owner j.len (setupAt j.setup) j.data with
        | some c => ∀ b, (c.answer env w.user).1 = .ok b → b.length ≤ j.len.toNat
        | none => ∀ f,
          (if 128 ≤ ep.address.toNat then
            descriptorOf j.device ((setupAt j.setup).value.toNat / 256) ((setupAt j.setup).value.toNat % 256)
           else some [j.device.configurationValue]) = some f →
          if (setupAt j.setup).length.toNat < f.length % 65536 then (setupAt j.setup).length.toNat ≤ j.len.toNat
          else f.length ≤ j.len.toNat)) by
      refine ⟨fun h => core.1 (h ep owner rfl), fun h hn ep' owner' he => ?_⟩
      cases he
      exact core.2 h (hn ep owner rfl)
    unfold said
    cases hc : addressee j.device ep owner j.len (setupAt j.setup) j.data with
    | some call =>
      dsimp only
      by_cases hcr : crashed w call.target = true
      · simp [hcr]
      · simp only [hcr, if_false, Bool.false_eq_true]
        cases (call.answer env w.user).1 <;> simp [Spec.HRes.said]
    | none =>
      dsimp only
      by_cases hs : ep.attributes.toNat = 0 ∧ standard ep (setupAt j.setup)
      · rw [if_pos hs]
        by_cases ha : 128 ≤ ep.address.toNat
        · simp only [if_pos ha]
          by_cases ho : Overflows p j.device ((setupAt j.setup).value.toNat / 256) ((setupAt j.setup).value.toNat % 256)
          · simp [if_pos ho]
          · simp only [if_neg ho]
            cases descriptorOf j.device ((setupAt j.setup).value.toNat / 256) ((setupAt j.setup).value.toNat % 256) with
            | none => simp
            | some f => simp [hat]
        · simp [if_neg ha, hat]
      · simp [if_neg hs]

/-- C41, exactly: in any state, a submit that is executed and whose reply is sent in full is answered with no more
data than it has room for if and only if what the handler asked gave, or the part of a descriptor that the setup
packet asks for, fits (what is missing of C41: the library does not cut it, see `C41_fails`). -/
theorem C41_exact_partial {σ} (env : Env σ) (p : Profile) (s : Sys σ) (c : Nat) (j : Job) (y : Conn)
    (hj : job p s c = some j) (hy : (s.step env p (.iterate c .full)).conns c = some y) (hr : y.status = .running) :
    (newlySent s (s.step env p (.iterate c .full)) c).length = 48 + (j.reply env p s.shared.world).length ∧
    (newlySent s (s.step env p (.iterate c .full)) c).drop 48 = j.reply env p s.shared.world ∧
    ((newlySent s (s.step env p (.iterate c .full)) c).length ≤ 48 + j.len.toNat ↔ j.Within env s.shared.world) := by
  obtain ⟨h1, h2⟩ := job_sent env p s c .full j hj
  obtain ⟨r, b, h3, h4⟩ := h2 y hy hr
  have h5 := submit_reply env p s.shared j
  rw [h3] at h5
  obtain ⟨h6, h7⟩ := h5 b h4
  rw [h1, h3]
  simp only [wired, h4]
  refine ⟨h6, h7, ?_⟩
  rw [h6, Nat.add_le_add_iff_left]
  obtain ⟨w1, w2⟩ := reply_within env p s.shared.world j
  refine ⟨fun h => w2 h ?_, w1⟩
  intro ep owner hf hcr
  rw [submit_eq env p s.shared j ep owner hf] at h3
  have hS := (handleUrb_said env p j.device ep owner j.len (setupAt j.setup) j.data s.shared.world).1
  rw [hcr, Said.Is] at hS
  dsimp only at h3
  rw [hS] at h3
  simp at h3

/-- The length a handler is asked for. -/
def Spec.HCall.len : HCall → UInt32
  | .iface _ _ _ len _ _ => len
  | .dev _ len _ _ => len

/-- C41 on a server whose handlers respect the limit, whatever state it is in and however much of the reply can be
sent, for requests whose setup packet asks for no more than the buffer holds: never more than the buffer holds. -/
theorem C41_history_partial {σ} (env : Env σ) (p : Profile) (s : Sys σ) (c : Nat) (w : WriteRes) (j : Job)
    (henv : Limited env) (hj : job p s c = some j) (hw : (setupAt j.setup).length.toNat ≤ j.len.toNat)
    (hfull : ∀ f, descriptorOf j.device ((setupAt j.setup).value.toNat / 256) ((setupAt j.setup).value.toNat % 256) = some f →
      f.length < 65536) :
    (newlySent s (s.step env p (.iterate c w)) c).length ≤ 48 + j.len.toNat := by
  have hwithin : j.Within env s.shared.world := by
    intro ep owner hf
    cases hc : addressee j.device ep owner j.len (setupAt j.setup) j.data with
    | some call =>
      dsimp only
      have hlen : Spec.HCall.len call = j.len := by
        unfold addressee at hc
        repeat' split at hc
        all_goals first
          | (simp only [Option.map_eq_some_iff] at hc; obtain ⟨_, _, rfl⟩ := hc; rfl)
          | simp at hc
      intro b hb
      cases call with
      | iface h i e l st dt => simp only [Spec.HCall.len] at hlen; subst hlen; exact henv.1 _ _ _ _ _ _ _ _ hb
      | dev h l st dt => simp only [Spec.HCall.len] at hlen; subst hlen; exact henv.2 _ _ _ _ _ _ hb
    | none =>
      intro f hf
      have hlt : f.length < 65536 := by
        split at hf
        · exact hfull f hf
        · simp only [Option.some.injEq] at hf; subst hf; simp
      rw [Nat.mod_eq_of_lt hlt]
      split <;> omega
  have h1 := (job_sent env p s c w j hj).1
  have hlen := (reply_within env p s.shared.world j).1 hwithin
  rw [h1]
  have h5 := submit_reply env p s.shared j
  cases ho : (s.shared.submit env p j.device j.header j.len j.setup j.data).1 with
  | ok r =>
    rw [ho] at h5
    simp only [wired]
    cases hb : r.toBytes p with
    | ok b =>
      obtain ⟨h6, _⟩ := h5 b hb
      dsimp only
      cases w <;> simp only [List.length_take] <;> omega
    | _ => simp
  | _ => simp [wired]

/-- C41: libusb and nusb handlers respect the limit, whatever the libraries do (an answer that does not fit makes
the handler panic); so C41 holds for shared devices beside handlers that respect it. -/
theorem C41_shared {σ τ} (lib : RusbLib τ) (libI libD : Nat → NusbLib τ) (ifs devs : Nat → Bool) (env : Env σ)
    (h : Limited env) : Limited (sharing lib ifs devs env) ∧ Limited (sharingNusb libI libD ifs devs env) := by
  have hsl : ∀ n r b, sliceResult n r = .ok b → b.length ≤ n := by
    intro n r b hb
    unfold sliceResult at hb
    split at hb
    · simp only [HRes.ok.injEq] at hb; subst hb; simp
    · split at hb
      · simp only [HRes.ok.injEq] at hb; subst hb; rw [List.length_take]; omega
      · simp at hb
  have hnil : ∀ (n : Nat) (b : Bytes), (HRes.ok [] : HRes) = .ok b → b.length ≤ n := by
    intro n b hb; simp only [HRes.ok.injEq] at hb; subst hb; simp
  refine ⟨⟨?_, ?_⟩, ⟨?_, ?_⟩⟩
  · intro hd i e len st dt u b hb
    simp only [sharing, Handle.locked] at hb
    split at hb
    · split at hb
      · simp at hb
      simp only [rusbIface] at hb
      repeat' split at hb
      all_goals first | exact hsl _ _ _ hb | exact hnil _ _ hb
    · exact h.1 _ _ _ _ _ _ _ _ hb
  · intro hd len st dt u b hb
    simp only [sharing, Handle.locked] at hb
    split at hb
    · split at hb
      · simp at hb
      simp only [rusbDev] at hb
      split at hb
      · exact hnil _ _ hb
      · exact hsl _ _ _ hb
    · exact h.2 _ _ _ _ _ _ hb
  · intro hd i e len st dt u b hb
    simp only [sharingNusb] at hb
    split at hb
    · simp only [nusbIface] at hb
      repeat' split at hb
      all_goals first | exact hsl _ _ _ hb | exact hnil _ _ hb | simp at hb
    · exact h.1 _ _ _ _ _ _ _ _ hb
  · intro hd len st dt u b hb
    simp only [sharingNusb] at hb
    split at hb
    · simp only [nusbDev] at hb
      repeat' split at hb
      all_goals first | exact hsl _ _ _ hb | exact hnil _ _ hb | simp at hb
    · exact h.2 _ _ _ _ _ _ hb

/-- C41 for the bundled handlers, exactly: the serial port gives all it has buffered; a fresh keyboard, after any
use, gives at most 8 bytes on a data endpoint and at most the 63 of its report descriptor on endpoint 0. -/
theorem C41_bundled (c : Cdc) (e : Endpoint) (ops : List KOp) (st : SetupPacket) (b : Bytes) :
    ((c.handleUrb e).1 = .ok b →
      b = if e.attributes.toNat ≠ 3 ∧ 128 ≤ e.address.toNat then c.txBuffer else []) ∧
    (((typeAndPoll Keyboard.new ops).2.handleUrb e st).1 = .ok b →
      b.length ≤ if e.address.toNat % 128 = 0 then 63 else 8) := by
  have hin : e.direction = .in ↔ 128 ≤ e.address.toNat := direction_in e
  have hkeep : ∀ (k : Keyboard) (e : Endpoint) (st : SetupPacket), (k.handleUrb e st).2.reportDescriptor = k.reportDescriptor := by
    intro k e st
    unfold Keyboard.handleUrb
    repeat' split
    all_goals rfl
  have hdesc : ∀ (ops : List KOp) (k : Keyboard), (typeAndPoll k ops).2.reportDescriptor = k.reportDescriptor := by
    intro ops
    induction ops with
    | nil => intro k; rfl
    | cons op ops ih =>
      intro k
      cases op with
      | push r => exact ih _
      | urb e st => exact (ih _).trans (hkeep k e st)
  refine ⟨?_, ?_⟩
  · unfold Cdc.handleUrb
    have h3 : e.attributes = EndpointAttributes.interrupt.toU8 ↔ e.attributes.toNat = 3 :=
      ⟨fun h => by rw [h]; rfl, fun h => u8_ext (by rw [h]; rfl)⟩
    by_cases ha : e.attributes.toNat = 3
    · rw [if_pos (h3.mpr ha), if_neg (fun h => h.1 ha)]
      intro h
      simp only [HRes.ok.injEq] at h
      exact h.symm
    · rw [if_neg (fun h => ha (h3.mp h))]
      cases hd : e.direction with
      | «in» => intro h; simp only [HRes.ok.injEq] at h; simp [ha, hin.mp hd, h]
      | out =>
        have : ¬ 128 ≤ e.address.toNat := fun h => by rw [hin.mpr h] at hd; simp at hd
        intro h; simp only [HRes.ok.injEq] at h; simp [this, ← h]
  · have hd := hdesc ops Keyboard.new
    generalize (typeAndPoll Keyboard.new ops).2 = k at hd
    have h0 : e.isEp0 = true ↔ e.address.toNat % 128 = 0 := isEp0_iff e
    unfold Keyboard.handleUrb
    by_cases he : e.isEp0 = true
    · rw [if_pos he, if_pos (h0.mp he), hd]
      repeat' split
      all_goals intro h; simp only [HRes.ok.injEq, reduceCtorEq] at h
      all_goals subst h; decide
    · rw [if_neg he, if_neg (fun h => he (h0.mpr h))]
      repeat' split
      all_goals intro h; simp only [HRes.ok.injEq, reduceCtorEq] at h
      all_goals subst h; simp

/-- Not vacuous: a submit to a handler that respects the limit (5 bytes asked, 5 sent), and one for a descriptor. -/
example :
    let s (cmd : Cmd) := (Sys.init [devA] world).run shortEnv dev
      [.connect 0 ⟨wireCmd (.reqImport 0 busA) ++ wireCmd cmd, .unexpectedEof⟩, .iterate 0 .full]
    let five : Cmd := .submit ⟨1, 5, 65538, 1, 1⟩ 0 5 0 0 0 [0, 0, 0, 0, 0, 0, 0, 0] [] []
    let desc : Cmd := .submit ⟨1, 6, 65538, 1, 0⟩ 0 64 0 0 0 [0x80, 6, 0, 1, 0, 0, 8, 0] [] []
    (job dev (s five) 0).map (fun j => (j.len, (setupAt j.setup).length)) = some (5, 0) ∧
    (newlySent (s five) ((s five).step shortEnv dev (.iterate 0 .full)) 0).length = 48 + 5 ∧
    (job dev (s desc) 0).map (fun j => (j.len, (setupAt j.setup).length)) = some (64, 8) ∧
    (newlySent (s desc) ((s desc).step shortEnv dev (.iterate 0 .full)) 0).length = 48 + 8 := by
  decide +kernel

example : Limited shortEnv := by
  refine ⟨?_, ?_⟩
  · intro h i e len s dt u b hb
    simp only [shortEnv, HRes.ok.injEq] at hb
    subst hb; simp
  · intro h len s dt u b hb
    simp only [shortEnv, HRes.ok.injEq] at hb
    subst hb; simp

end Usbip
