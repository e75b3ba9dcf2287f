import Verif.Props.Server
import Verif.Lemmas.Hosted
/-!
# Crashing handlers, transfer direction and endpoint numbers: C51, C54, C55
-/

namespace Usbip
open Spec Samples

/-! ## C51 -/

theorem crashed_poisoned {σ} (w : World σ) (c : HCall) : crashed w c.target = c.poisoned w := by
  cases c <;> rfl

theorem invoke_crashed {σ} (env : Env σ) (w : World σ) (c : HCall) (k : HandlerId) :
    crashed (env.invoke w c).2 k = true ↔
      crashed w k = true ∨ (k = c.target ∧ c.poisoned w = false ∧ (c.answer env w.user).1 = .panic) := by
  cases c with
  | iface h i e l s d =>
    simp only [Env.invoke, HCall.target, HCall.poisoned, HCall.answer]
    by_cases hp : w.ifPoisoned h = true
    · simp [hp]
    · have hp' : w.ifPoisoned h = false := by simpa using hp
      simp only [hp']
      cases hr : (env.iface h i e l s d w.user).1 <;> cases k <;> simp [crashed]
      rename_i k
      by_cases hk : k = h <;> simp [hk]
  | dev h l s d =>
    simp only [Env.invoke, HCall.target, HCall.poisoned, HCall.answer]
    by_cases hp : w.devPoisoned h = true
    · simp [hp]
    · have hp' : w.devPoisoned h = false := by simpa using hp
      simp only [hp']
      cases hr : (env.dev h l s d w.user).1 <;> cases k <;> simp [crashed]
      rename_i k
      by_cases hk : k = h <;> simp [hk]

/-- C51: processing a URB marks as crashed exactly the handler it is addressed to, exactly if that
handler was invoked and panicked; all other marks stay as they were. -/
theorem C51_exactly {σ} (env : Env σ) (p : Profile) (d : Device) (ep : Endpoint) (owner : Option Iface)
    (len : UInt32) (setup : SetupPacket) (data : Bytes) (w : World σ) (k : HandlerId) :
    crashed (d.handleUrb env p ep owner len setup data w).2 k = true ↔
      crashed w k = true ∨
      ∃ c, addressee d ep owner len setup data = some c ∧ c.target = k ∧ crashed w k = false ∧
        (c.answer env w.user).1 = .panic := by
  rw [handleUrb_addressee]
  cases ha : addressee d ep owner len setup data with
  | none =>
    simp only
    split <;> simp
  | some c =>
    simp only [invoke_crashed, Option.some.injEq]
    constructor
    · rintro (h | ⟨rfl, h1, h2⟩)
      · exact Or.inl h
      · exact Or.inr ⟨c, rfl, rfl, by rw [crashed_poisoned]; exact h1, h2⟩
    · rintro (h | ⟨c', rfl, rfl, h1, h2⟩)
      · exact Or.inl h
      · exact Or.inr ⟨rfl, by rw [← crashed_poisoned]; exact h1, h2⟩

/-- The URB of a submit on a connection with device `d`: the endpoint number decides. -/
theorem serve_submit {σ} (env : Env σ) (p : Profile) (s : Shared σ) (id : Bytes) (d : Device)
    (h : Header) (a len b n c : UInt32) (setup data iso : Bytes) (hd : amGet id s.used = some d) :
    s.serve env p (some id) (.submit h a len b n c setup data iso) =
      ((s.submit env p d h len setup data).1, (s.submit env p d h len setup data).2, some id) := by
  simp only [Shared.serve, Option.bind_some, hd]

/-- C51: once a handler has crashed, every later URB addressed to it, on any connection, panics
that connection's task without running the handler: the server's state, all handlers' included,
does not change and nothing is sent.  (`e` is the endpoint number with the direction bit.) -/
theorem C51_refused {σ} (env : Env σ) (p : Profile) (s : Shared σ) (x : Conn) (rest : Stream)
    (id : Bytes) (d : Device) (h : Header) (a len b n c : UInt32) (setup data iso : Bytes)
    (call : HCall) (w : WriteRes)
    (hr : readCommand p x.input = .ok (.submit h a len b n c setup data iso, rest))
    (hc : x.current = some id) (hd : amGet id s.used = some d)
    (hcall : Job.call ⟨d, h, len, setup, data⟩ = some call)
    (hcr : crashed s.world call.target = true) :
    x.iterate env p s w = (s, { x with input := rest, status := .panicked }) := by
  have hs : s.serve env p x.current (.submit h a len b n c setup data iso) = (.panic, s, x.current) := by
    rw [hc, serve_submit env p s id d h a len b n c setup data iso hd]
    have hsub : s.submit env p d h len setup data = (.panic, s) := by
      unfold Job.call at hcall
      cases hf : endpointAt d (Job.address ⟨d, h, len, setup, data⟩) with
      | none => simp [hf] at hcall
      | some r =>
        obtain ⟨ep, owner⟩ := r
        simp only [hf] at hcall
        have := submit_eq env p s ⟨d, h, len, setup, data⟩ ep owner hf
        simp only [handleUrb_addressee, hcall] at this
        rw [this]
        rw [crashed_poisoned] at hcr
        cases call with
        | iface h i e l s d => simp only [HCall.poisoned] at hcr; simp [Env.invoke, hcr]
        | dev h l s d => simp only [HCall.poisoned] at hcr; simp [Env.invoke, hcr]
    rw [hsub]
  unfold Conn.iterate
  rw [hr]; simp only [hs]

/-- C51: URBs to other handlers are not affected: what they are answered and what they do to the
handlers' state depends only on whether the handler they address has crashed. -/
theorem C51_others {σ} (env : Env σ) (p : Profile) (d : Device) (ep : Endpoint) (owner : Option Iface)
    (len : UInt32) (setup : SetupPacket) (data : Bytes) (w w' : World σ) (hu : w.user = w'.user)
    (hk : ∀ c, addressee d ep owner len setup data = some c → crashed w c.target = crashed w' c.target) :
    (d.handleUrb env p ep owner len setup data w).1 = (d.handleUrb env p ep owner len setup data w').1 ∧
    (d.handleUrb env p ep owner len setup data w).2.user
      = (d.handleUrb env p ep owner len setup data w').2.user := by
  rw [handleUrb_addressee, handleUrb_addressee]
  cases ha : addressee d ep owner len setup data with
  | none => simp only; split <;> exact ⟨rfl, hu⟩
  | some c =>
    have := hk c ha
    rw [crashed_poisoned, crashed_poisoned] at this
    simp only
    rw [(invoke_eq env w c).1, (invoke_eq env w c).2, (invoke_eq env w' c).1, (invoke_eq env w' c).2,
      this, hu]
    exact ⟨rfl, rfl⟩

theorem serve_crashed {σ} (env : Env σ) (p : Profile) (s : Shared σ) (cur : Option Bytes) (cmd : Cmd)
    (k : HandlerId) (hk : crashed s.world k = true) :
    crashed (s.serve env p cur cmd).2.1.world k = true := by
  cases cmd with
  | reqDevlist st => exact hk
  | reqImport st b => simp only [Shared.serve, Shared.import]; split <;> exact hk
  | unlink h n => exact hk
  | submit h a b c d e f g i =>
    simp only [Shared.serve]
    split
    · exact hk
    · rename_i dv _
      unfold Shared.submit
      dsimp only
      split
      · exact hk
      · rename_i ep intf hfind
        have := (C51_exactly env p dv ep intf b (SetupPacket.parse f) g s.world k).mpr (Or.inl hk)
        split <;> rename_i hx <;> rw [hx] at this <;> exact this

/-- C51: a crash is for good, in every continuation of every history. -/
theorem C51_forever {σ} (env : Env σ) (p : Profile) (es : List (Event σ)) (k : HandlerId) :
    ∀ (s : Sys σ), crashed s.shared.world k = true → crashed (s.run env p es).shared.world k = true := by
  induction es with
  | nil => intro s h; exact h
  | cons e es ih =>
    intro s h
    have hrun : s.run env p (e :: es) = (s.step env p e).run env p es := rfl
    rw [hrun]
    apply ih
    cases e with
    | connect c input => cases hy : s.conns c <;> simpa only [Sys.step, hy] using h
    | cancel c =>
      cases hy : s.conns c with
      | none => simpa only [Sys.step, hy] using h
      | some y => by_cases hr : y.status = .running <;> simpa only [Sys.step, hy, hr, if_true, if_false] using h
    | addDevice d => exact h
    | removeDevice id => simp only [Sys.step]; rw [(C28_remove s.shared id).2.2.2.2]; exact h
    | user f crash => exact (crashed_used s.shared.world f crash k).mpr (.inl h)
    | iterate c w =>
      cases hy : s.conns c with
      | none => simpa only [Sys.step, hy] using h
      | some y =>
        by_cases hr : y.status = .running
        · simp only [Sys.step, hy, hr, if_true]
          have hres := iterate_res env p s.shared y w
          generalize (y.iterate env p s.shared w).1 = sh' at hres ⊢
          generalize (y.iterate env p s.shared w).2 = y' at hres
          cases hres with
          | done e s' hr hrel =>
            have : sh'.world = s.shared.world := by
              cases hc : y.current with
              | none => rw [hc] at hrel; simp only [Shared.release, Option.some.injEq] at hrel; rw [← hrel]
              | some id =>
                rw [hc] at hrel
                simp only [Shared.release] at hrel
                split at hrel
                · simp only [Option.some.injEq] at hrel; rw [← hrel]
                · simp at hrel
            rw [this]; exact h
          | missing e hr hrel => exact h
          | readPanic hr => exact h
          | answered cmd rest resp s' cur' bytes hr hs hb hw =>
            have := serve_crashed env p s.shared y.current cmd k h
            rw [hs] at this; exact this
          | writeFailed cmd rest resp s' cur' bytes n e hr hs hb hw =>
            have := serve_crashed env p s.shared y.current cmd k h
            rw [hs] at this; exact this
          | writeCut cmd rest resp s' cur' bytes n hr hs hb hw =>
            have := serve_crashed env p s.shared y.current cmd k h
            rw [hs] at this; exact this
          | servePanic cmd rest hr hs => exact serve_crashed env p s.shared y.current cmd k h
        · simpa only [Sys.step, hy, hr, if_false] using h

/-- Sample: handler 1 (interface 1 of `devA`, interrupt endpoint 0x83) panics on its first URB. -/
def crashEvents : List (Event Nat) :=
  [.connect 0 ⟨wireCmd (.reqImport 0 busA) ++ wireCmd (.submit ⟨1, 1, 65538, 1, 3⟩ 0 8 0 0 0
      [0, 0, 0, 0, 0, 0, 0, 0] [] []), .unexpectedEof⟩,
   .iterate 0 .full, .iterate 0 .full]

example : crashed ((Sys.init [devA] Samples.world).run Samples.env dev crashEvents).shared.world (.iface 1)
      = true ∧
    crashed ((Sys.init [devA] Samples.world).run Samples.env dev crashEvents).shared.world (.iface 0)
      = false ∧
    Job.call ⟨devA, ⟨1, 1, 65538, 1, 3⟩, 8, [0, 0, 0, 0, 0, 0, 0, 0], []⟩
      = some (.iface 1 intf1 ⟨0x83, 3, 8, 1⟩ 8 ⟨0, 0, 0, 0, 0⟩ []) := by
  refine ⟨by decide, by decide, by decide⟩

/-! ## C54, C55 -/

/-- `e` is one of the device's endpoints: endpoint zero or one of an interface. -/
def HasEndpoint (d : Device) (e : Endpoint) : Prop :=
  e = d.ep0In ∨ e = d.ep0Out ∨ ∃ f ∈ d.interfaces, e ∈ f.endpoints

/-- The handler invocation concerns endpoint `e` (device handlers are not told the endpoint). -/
def Concerns (e : Endpoint) : HCall → Prop
  | .iface _ _ e' .. => e' = e
  | .dev .. => e.attributes.toNat = 0

theorem or128 (n : Nat) (h : n < 128) : n ||| 128 = n + 128 := by
  have : ∀ n, n < 128 → n ||| 128 = n + 128 := by decide
  exact this n h

/-- The endpoint address a request is executed on: the low bits of its endpoint number, with bit 7 set
unless the direction is OUT. -/
def executedOn (h : Header) : Nat :=
  if h.direction.toNat = 0 then h.ep.toNat % 256 else h.ep.toNat % 128 + 128

/-- The address looked up. -/
theorem lookup_address (h : Header) :
    (if h.direction = 0 then h.ep else h.ep ||| 0x80).toUInt8.toNat = executedOn h := by
  unfold executedOn
  by_cases hd : h.direction = 0
  · rw [if_pos hd, if_pos (by rw [hd]; rfl), UInt32.toNat_toUInt8]
  · rw [if_neg hd, if_neg (fun e => hd (u32_ext (by rw [e]; rfl))), UInt32.toNat_toUInt8, UInt32.toNat_or,
      show (0x80 : UInt32).toNat = 2 ^ 7 from rfl]
    apply Nat.eq_of_testBit_eq
    intro i
    have e1 : ∀ n, n % 128 + 128 = 2 ^ 7 * 1 + n % 2 ^ 7 := by intro n; omega
    rw [e1, Nat.testBit_two_pow_mul_add _ (Nat.mod_lt _ (by decide)), show (2 : Nat) ^ 8 = 2 ^ 8 from rfl,
      Nat.testBit_mod_two_pow, Nat.testBit_or, Nat.testBit_mod_two_pow, Nat.testBit_two_pow]
    by_cases h7 : i < 7
    · simp [h7, show i < 8 by omega, show 7 ≠ i by omega]
    · by_cases h8 : i = 7
      · subst h8; simp
      · have : ¬ i < 8 := by omega
        have : (1 : Nat).testBit (i - 7) = false := by
          apply Nat.testBit_lt_two_pow
          calc 1 < 2 ^ 1 := by decide
            _ ≤ 2 ^ (i - 7) := Nat.pow_le_pow_right (by decide) (by omega)
        simp [*]

theorem addressee_concerns {d : Device} {ep : Endpoint} {owner : Option Iface} {len : UInt32}
    {setup : SetupPacket} {data : Bytes} {c : HCall}
    (h : addressee d ep owner len setup data = some c) : Concerns ep c := by
  unfold addressee at h
  split at h
  · rename_i h0
    split at h
    · simp at h
    · split at h
      · simp only [Option.map_eq_some_iff] at h
        obtain ⟨i, _, rfl⟩ := h
        rfl
      · split at h
        · simp only [Option.map_eq_some_iff] at h
          obtain ⟨i, _, rfl⟩ := h
          exact h0
        · simp at h
  · split at h
    · simp only [Option.map_eq_some_iff] at h
      obtain ⟨i, _, rfl⟩ := h
      rfl
    · simp at h

/-- The log after processing a URB. -/
theorem handleUrb_log {σ} (env : Env σ) (p : Profile) (d : Device) (ep : Endpoint)
    (owner : Option Iface) (len : UInt32) (setup : SetupPacket) (data : Bytes) (w : World σ)
    (log : List HCall) :
    ∃ calls, (d.handleUrb (watch env) p ep owner len setup data (World.logged w log)).2.user.2 = log ++ calls ∧
      ∀ c ∈ calls, Concerns ep c := by
  obtain ⟨h1, h2, h3⟩ := C19_dispatch env p d ep owner len setup data w log
  cases ha : addressee d ep owner len setup data with
  | none => exact ⟨[], by rw [h3 ha]; simp [World.logged], by simp⟩
  | some c =>
    cases hp : c.poisoned w with
    | true => exact ⟨[], by rw [h2 c ha hp]; simp [World.logged], by simp⟩
    | false =>
      refine ⟨[c], by rw [(h1 c ha hp).2], ?_⟩
      intro c' hc'
      simp only [List.mem_singleton] at hc'
      rw [hc']
      exact addressee_concerns ha

/-- What a submit does to the server. -/
theorem submit_state {σ} (env : Env σ) (p : Profile) (sl : Shared σ) (x : Conn) (rest : Stream) (id : Bytes) (d : Device)
    (h : Header) (a len b n c : UInt32) (setup data iso : Bytes)
    (hr : readCommand p x.input = .ok (.submit h a len b n c setup data iso, rest))
    (hc : x.current = some id) (hd : amGet id sl.used = some d) (w : WriteRes) :
    (x.iterate env p sl w).1 = (sl.submit env p d h len setup data).2 := by
  have hserve := serve_submit env p sl id d h a len b n c setup data iso hd
  have hres := iterate_res env p sl x w
  rw [← hc] at hserve
  generalize (x.iterate env p sl w).1 = s' at hres ⊢
  generalize (x.iterate env p sl w).2 = x' at hres
  cases hres with
  | done e s' hr' hrel => rw [hr] at hr'; simp at hr'
  | missing e hr' hrel => rw [hr] at hr'; simp at hr'
  | readPanic hr' => rw [hr] at hr'; simp at hr'
  | answered cmd' rest' resp s' cur' bytes hr' hs hb hw =>
    rw [hr] at hr'
    simp only [Outcome.ok.injEq, Prod.mk.injEq] at hr'
    obtain ⟨rfl, rfl⟩ := hr'
    rw [hserve] at hs
    simp only [Prod.mk.injEq] at hs
    exact hs.2.1.symm
  | writeFailed cmd' rest' resp s' cur' bytes n e hr' hs hb hw =>
    rw [hr] at hr'
    simp only [Outcome.ok.injEq, Prod.mk.injEq] at hr'
    obtain ⟨rfl, rfl⟩ := hr'
    rw [hserve] at hs
    simp only [Prod.mk.injEq] at hs
    exact hs.2.1.symm
  | writeCut cmd' rest' resp s' cur' bytes n hr' hs hb hw =>
    rw [hr] at hr'
    simp only [Outcome.ok.injEq, Prod.mk.injEq] at hr'
    obtain ⟨rfl, rfl⟩ := hr'
    rw [hserve] at hs
    simp only [Prod.mk.injEq] at hs
    exact hs.2.1.symm
  | servePanic cmd' rest' hr' hs =>
    rw [hr] at hr'
    simp only [Outcome.ok.injEq, Prod.mk.injEq] at hr'
    obtain ⟨rfl, rfl⟩ := hr'
    rw [hserve]

/-- C54 and C55, for all requests: a submit is read from the wire on a connection with device `d`.  Then
* the packet carried a payload (of the announced length) unless the direction is 1;
* every handler invocation it causes concerns an endpoint of `d` whose address is `executedOn`;
* if `d` has no such endpoint, no handler is invoked, and the reply, if sent, is a failure. -/
theorem C55_exact {σ} (env : Env σ) (p : Profile) (s : Shared σ) (log : List HCall)
    (sl : Shared (σ × List HCall)) (hsl : sl = ⟨s.available, s.used, World.logged s.world log⟩)
    (x : Conn) (rest : Stream) (id : Bytes) (d : Device) (h : Header) (a len b n c : UInt32)
    (setup data iso : Bytes) (w : WriteRes)
    (hr : readCommand p x.input = .ok (.submit h a len b n c setup data iso, rest))
    (hc : x.current = some id) (hd : amGet id s.used = some d) (h0 : Ep0 d) :
    data.length = (if h.direction.toNat = 1 then 0 else len.toNat) ∧
    (∃ calls, (x.iterate (watch env) p sl w).1.world.user.2 = log ++ calls ∧
      ∀ call ∈ calls, ∃ e, HasEndpoint d e ∧ Concerns e call ∧
        e.address.toNat = executedOn h) ∧
    ((∀ e, HasEndpoint d e → e.address.toNat ≠ executedOn h) →
      (x.iterate (watch env) p sl w).1.world.user.2 = log ∧
      (x.iterate (watch env) p sl .full).2.served
        = x.served ++ [(.submit h a len b n c setup data iso, .retSubmit { h with command := 3 } 1 0 0 0 0 [] [])]) := by
  refine ⟨(C06_length p x.input rest h a len b n c setup data iso hr).2.1, ?_⟩
  have haddr := lookup_address h
  generalize hA : (if h.direction = 0 then h.ep else h.ep ||| 0x80).toUInt8 = A at haddr
  -- the state after the iteration is the state after `submit`
  have hdl : amGet id sl.used = some d := by rw [hsl]; exact hd
  have hserve := serve_submit (watch env) p sl id d h a len b n c setup data iso hdl
  have hstate := submit_state (watch env) p sl x rest id d h a len b n c setup data iso hr hc hdl
  cases hf : d.findEp A with
  | none =>
    have hsub : sl.submit (watch env) p d h len setup data
        = (.ok (usbipRetSubmitFail { h with command := USBIP_RET_SUBMIT.toUInt32 }), sl) := by
      unfold Shared.submit
      simp only [beq_iff_eq]
      rw [hA, hf]
    have hlog : (sl.submit (watch env) p d h len setup data).2.world.user.2 = log := by
      rw [hsub, hsl]; rfl
    refine ⟨⟨[], by rw [hstate, hlog]; simp, by simp⟩, fun _ => ⟨by rw [hstate, hlog], ?_⟩⟩
    obtain ⟨bytes, hb, _⟩ := (C08_fail_and_unlink p h []).1
    rw [iterate_answered (watch env) p sl x _ rest (usbipRetSubmitFail { h with command := 3 }) sl
      x.current bytes hr (by rw [hc, hserve, hsub]; rfl) hb]
    rfl
  | some r =>
    obtain ⟨e, owner⟩ := r
    have hhas : HasEndpoint d e ∧ e.address = A := by
      rcases (C18_found d h0 A e owner).mp hf with ⟨h1, h2, _⟩ | ⟨h1, h2, _⟩ |
        ⟨_, _, l1, f, l2, e1, e2, _, hl, hle, hea, _⟩
      · exact ⟨Or.inl h2, by rw [h2, h0.1, h1]⟩
      · exact ⟨Or.inr (Or.inl h2), by rw [h2, h0.2.1, h1]⟩
      · exact ⟨Or.inr (Or.inr ⟨f, by rw [hl]; simp, by rw [hle]; simp⟩), hea⟩
    have hea : e.address.toNat = executedOn h := by rw [hhas.2, haddr]
    refine ⟨?_, fun hno => absurd hea (hno e hhas.1)⟩
    obtain ⟨calls, hcalls, hcon⟩ := handleUrb_log env p d e owner len (SetupPacket.parse setup) data s.world log
    refine ⟨calls, ?_, fun call hcall => ⟨e, hhas.1, hcon call hcall, hea⟩⟩
    rw [hstate, ← hcalls]
    unfold Shared.submit
    simp only [beq_iff_eq]
    rw [hA, hf]
    have hw : sl.world = World.logged s.world log := by rw [hsl]
    simp only [hw]
    split <;> rename_i heq <;> rw [heq]

/-- C54 and C55 for requests whose direction is 0 or 1 and whose endpoint number is below 128
(what is missing: the protocol's fields are 32 bits wide; see the failing cases below).  A submit
is read from the wire on a connection with device `d`.  Then
* the packet carried a payload (of the announced length) exactly if the direction is OUT;
* every handler invocation it causes concerns an endpoint of `d` whose address is the request's
  endpoint number with bit 7 telling the request's direction;
* if `d` has no such endpoint, no handler is invoked, and the reply, if sent, is a failure. -/
theorem C55_endpoint_partial {σ} (env : Env σ) (p : Profile) (s : Shared σ) (log : List HCall)
    (sl : Shared (σ × List HCall)) (hsl : sl = ⟨s.available, s.used, World.logged s.world log⟩)
    (x : Conn) (rest : Stream) (id : Bytes) (d : Device) (h : Header) (a len b n c : UInt32)
    (setup data iso : Bytes) (w : WriteRes)
    (hr : readCommand p x.input = .ok (.submit h a len b n c setup data iso, rest))
    (hc : x.current = some id) (hd : amGet id s.used = some d) (h0 : Ep0 d)
    (hep : h.ep.toNat < 128) (hdir : h.direction.toNat ≤ 1) :
    data.length = (if h.direction.toNat = 0 then len.toNat else 0) ∧
    (∃ calls, (x.iterate (watch env) p sl w).1.world.user.2 = log ++ calls ∧
      ∀ call ∈ calls, ∃ e, HasEndpoint d e ∧ Concerns e call ∧
        e.address.toNat = h.ep.toNat + 128 * h.direction.toNat) ∧
    ((∀ e, HasEndpoint d e → e.address.toNat ≠ h.ep.toNat + 128 * h.direction.toNat) →
      (x.iterate (watch env) p sl w).1.world.user.2 = log ∧
      (x.iterate (watch env) p sl .full).2.served
        = x.served ++ [(.submit h a len b n c setup data iso, .retSubmit { h with command := 3 } 1 0 0 0 0 [] [])]) := by
  have := C55_exact env p s log sl hsl x rest id d h a len b n c setup data iso w hr hc hd h0
  rw [show executedOn h = h.ep.toNat + 128 * h.direction.toNat by unfold executedOn; split <;> omega] at this
  refine ⟨?_, this.2⟩
  rw [this.1]
  split <;> split <;> first | rfl | omega

/-- Whatever device and server: a submit with header `h` is executed on the endpoint it names, in the direction that decided
about its payload; that is, all handler invocations it causes concern such an endpoint. -/
def NamedRightly (p : Profile) (h : Header) : Prop :=
  ∀ (σ : Type) (env : Env σ) (s : Shared σ) (x : Conn) (rest : Stream) (id : Bytes) (d : Device) (a len b n c : UInt32)
    (setup data iso : Bytes) (w : WriteRes),
    readCommand p x.input = .ok (.submit h a len b n c setup data iso, rest) → x.current = some id →
    amGet id s.used = some d → Ep0 d →
    ∀ call ∈ (x.iterate (watch env) p ⟨s.available, s.used, World.logged s.world []⟩ w).1.world.user.2,
      ∃ e, HasEndpoint d e ∧ Concerns e call ∧ e.address.toNat % 128 = h.ep.toNat ∧
        (e.address.toNat < 128 ↔ h.direction.toNat ≠ 1)

/-- A device whose interface has the endpoint `a`. -/
def deviceAt (a : UInt8) : Device := { devA with interfaces := [{ intf0 with endpoints := [⟨a, 2, 64, 0⟩] }] }

theorem deviceAt_called (a : UInt8) : ∃ e owner, (deviceAt a).findEp a = some (e, owner) ∧ e.address = a ∧
    addressee (deviceAt a) e owner 0 (SetupPacket.parse [0x21, 9, 0, 0, 0, 0, 0, 0]) [] =
      some (.iface 0 { intf0 with endpoints := [⟨a, 2, 64, 0⟩] } e 0 (SetupPacket.parse [0x21, 9, 0, 0, 0, 0, 0, 0]) []) := by
  by_cases h1 : a = 0x80
  · subst h1; exact ⟨_, _, rfl, rfl, by decide⟩
  by_cases h2 : a = 0
  · subst h2; exact ⟨_, _, rfl, rfl, by decide⟩
  refine ⟨⟨a, 2, 64, 0⟩, some { intf0 with endpoints := [⟨a, 2, 64, 0⟩] }, ?_, rfl, rfl⟩
  unfold Device.findEp
  rw [if_neg (show ¬ a = (deviceAt a).ep0In.address from h1), if_neg (show ¬ a = (deviceAt a).ep0Out.address from h2)]
  simp [deviceAt, findEpIfs, findEpIn]

/-- C54 and C55: exactly the requests that are executed on the endpoint they name, in the direction that
decided about their payload, whatever the device: those with direction 0 or 1 and an endpoint number below 128.  (Builds with
debug assertions do not read requests with other directions.) -/
theorem C55_when_partial (p : Profile) (h : Header) (hcmd : h.command.toNat = 1)
    (hread : p.debugAssertions = true → h.direction.toNat ≤ 1) :
    NamedRightly p h ↔ h.ep.toNat < 128 ∧ h.direction.toNat ≤ 1 := by
  have arith : (executedOn h % 128 = h.ep.toNat ∧ (executedOn h < 128 ↔ h.direction.toNat ≠ 1)) ↔
      h.ep.toNat < 128 ∧ h.direction.toNat ≤ 1 := by
    unfold executedOn
    split <;> omega
  rw [← arith]
  constructor
  · intro H
    generalize hA : (if h.direction = 0 then h.ep else h.ep ||| 0x80).toUInt8 = A
    have haddr := lookup_address h
    rw [hA] at haddr
    obtain ⟨e, owner, hf, hea, hcall⟩ := deviceAt_called A
    obtain ⟨bs, _, _, hr⟩ := C01_roundtrip p (.submit h 0 0 0 0 0 [0x21, 9, 0, 0, 0, 0, 0, 0] [] []) [] .unexpectedEof
      ⟨hcmd, hread, rfl, by split <;> rfl, by decide⟩
    have hst := submit_state (watch Samples.env) p ⟨[], [([], deviceAt A)], World.logged Samples.world []⟩
      { Conn.new ⟨bs ++ [], .unexpectedEof⟩ with current := some [] } _ [] (deviceAt A) h 0 0 0 0 0 _ _ _ hr rfl rfl .full
    have hlog : (Shared.submit (watch Samples.env) p ⟨[], [([], deviceAt A)], World.logged Samples.world []⟩ (deviceAt A) h 0
        [0x21, 9, 0, 0, 0, 0, 0, 0] []).2.world.user.2 = [.iface 0 { intf0 with endpoints := [⟨A, 2, 64, 0⟩] } e 0
          (SetupPacket.parse [0x21, 9, 0, 0, 0, 0, 0, 0]) []] := by
      have h19 := ((C19_dispatch Samples.env p (deviceAt A) e owner 0 (SetupPacket.parse [0x21, 9, 0, 0, 0, 0, 0, 0]) []
        Samples.world []).1 _ hcall rfl).2
      unfold Shared.submit
      simp only [beq_iff_eq]
      rw [hA, hf]
      dsimp only
      generalize Device.handleUrb (watch Samples.env) p (deviceAt A) e owner 0 (SetupPacket.parse [0x21, 9, 0, 0, 0, 0, 0, 0]) []
        (World.logged Samples.world []) = r at h19 ⊢
      obtain ⟨o, w⟩ := r
      dsimp only at h19
      cases o <;> (dsimp only; rw [h19]; rfl)
    obtain ⟨e', _, hcon, h1, h2⟩ := H _ Samples.env ⟨[], [([], deviceAt A)], Samples.world⟩
      { Conn.new ⟨bs ++ [], .unexpectedEof⟩ with current := some [] } _ [] (deviceAt A) 0 0 0 0 0 _ _ _ .full hr rfl rfl
      ⟨rfl, rfl, rfl, rfl⟩ _ (by rw [hst, hlog]; exact List.mem_singleton.2 rfl)
    have : e = e' := hcon
    subst this
    rw [hea, haddr] at h1 h2
    exact ⟨h1, h2⟩
  · rintro ⟨h1, h2⟩ σ env s x rest id d a len b n c setup data iso w hr hc hd h0 call hcall
    obtain ⟨_, ⟨calls, hl, hcs⟩, _⟩ := C55_exact env p s [] _ rfl x rest id d h a len b n c setup data iso w hr hc hd h0
    rw [hl, List.nil_append] at hcall
    obtain ⟨e, he, hcon, ha⟩ := hcs call hcall
    exact ⟨e, he, hcon, by rw [ha]; exact h1, by rw [ha]; exact h2⟩

/-- Cases on either side: endpoint 1 IN, and endpoint 257 IN, in all builds. -/
example (p : Profile) : NamedRightly p ⟨1, 5, 65538, 1, 1⟩ ∧ ¬ NamedRightly p ⟨1, 5, 65538, 1, 257⟩ :=
  ⟨(C55_when_partial p _ rfl (fun _ => by decide)).2 (by decide),
   fun h => absurd ((C55_when_partial p _ rfl (fun _ => by decide)).1 h) (by decide)⟩

/-- Samples: an IN submit to endpoint 1 of `devA` on a connection that has it. -/
def cmdIn1 : Cmd := .submit ⟨1, 5, 65538, 1, 1⟩ 0 64 0 0 0 [0, 0, 0, 0, 0, 0, 0, 0] [] []
def connIn1 : Conn :=
  { Conn.new ⟨wireCmd cmdIn1, .unexpectedEof⟩ with current := some devA.busId }

example : readCommand dev connIn1.input = .ok (cmdIn1, ⟨[], .unexpectedEof⟩) ∧
    connIn1.current = some devA.busId ∧ amGet devA.busId sharedA.used = some devA ∧ Ep0 devA ∧
    HasEndpoint devA ⟨0x81, 2, 64, 0⟩ := by
  refine ⟨by decide, rfl, rfl, ⟨rfl, rfl, rfl, rfl⟩, Or.inr (Or.inr ⟨intf0, ?_, ?_⟩)⟩
  · simp [devA]
  · simp [intf0]

/-- The log of handler calls and the kind of answer after one submit to `devA`. -/
def tryUrb (p : Profile) (cmd : Cmd) : List (Option UInt8) × Option (List UInt32) :=
  let x : Conn := { Conn.new ⟨wireCmd cmd, .unexpectedEof⟩ with current := some devA.busId }
  let r := x.iterate (watch Samples.env) p
    ⟨[], [(devA.busId, devA)], World.logged Samples.world []⟩ .full
  (r.1.world.user.2.map (fun c => match c with | .iface _ _ e .. => some e.address | _ => none),
   r.2.served.head?.map (fun e => match e.2 with | .retSubmit h st .. => [h.direction, h.ep, st] | _ => []))

/-- C55 fails for endpoint numbers of 256 and more, in debug and release builds: an IN request to endpoint 257
is executed on endpoint 0x81 and answered with success. -/
theorem C55_fails_truncation (p : Profile) (hp : p = dev ∨ p = release) :
    tryUrb p (.submit ⟨1, 5, 65538, 1, 257⟩ 0 64 0 0 0 [0, 0, 0, 0, 0, 0, 0, 0] [] [])
      = ([some 0x81], some [1, 257, 0]) := by
  rcases hp with rfl | rfl <;> decide

/-- C55 and C54 fail for endpoint numbers from 128: an OUT request (with payload) to endpoint 0x81
is executed on the IN endpoint 0x81. -/
theorem C54_fails_out_as_in :
    tryUrb release (.submit ⟨1, 5, 65538, 0, 0x81⟩ 0 2 0 0 0 [0, 0, 0, 0, 0, 0, 0, 0] [1, 2] [])
      = ([some 0x81], some [0, 0x81, 0]) := by decide

/-- C54 fails for a direction other than 0 and 1 in builds without debug assertions: the packet is
read with a payload, like an OUT transfer, but executed on the IN endpoint. -/
theorem C54_fails_direction :
    tryUrb release (.submit ⟨1, 5, 65538, 2, 1⟩ 0 2 0 0 0 [0, 0, 0, 0, 0, 0, 0, 0] [1, 2] [])
      = ([some 0x81], some [2, 1, 0]) := by decide

end Usbip
