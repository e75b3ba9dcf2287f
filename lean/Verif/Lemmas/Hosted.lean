import Verif.Spec.Hosted
import Verif.Lemmas.Said
import Verif.Lemmas.Server
import Verif.Lemmas.Locks
import Verif.Lemmas.Wire
/-! Helper lemmas: a handler object behind the server. -/

namespace Usbip
open Spec

theorem jobAddress_eq (h : Header) :
    (if h.direction == 0 then h.ep else h.ep ||| 0x80).toUInt8 =
      if h.direction.toNat = 0 then UInt8.ofNat (h.ep.toNat % 256)
      else UInt8.ofNat (h.ep.toNat % 128 + 128) := by
  have h0 : h.direction == 0 ↔ h.direction.toNat = 0 := by
    rw [beq_iff_eq, ← UInt32.toNat_inj]; rfl
  by_cases hd : h.direction.toNat = 0
  · rw [if_pos (h0.mpr hd), if_pos hd]
    apply u8_ext
    rw [UInt32.toNat_toUInt8, UInt8.toNat_ofNat']
    omega
  · rw [if_neg (fun hh => hd (h0.mp hh)), if_neg hd]
    apply u8_ext
    rw [UInt32.toNat_toUInt8, UInt8.toNat_ofNat', UInt32.toNat_or]
    show (h.ep.toNat ||| 128) % 256 = _
    have e : ∀ n < 256, (n ||| 128) % 256 = (n % 128 + 128) % 256 := by decide +kernel
    have := e (h.ep.toNat % 256) (Nat.mod_lt _ (by decide))
    have l : (h.ep.toNat ||| 128) % 256 = (h.ep.toNat % 256 ||| 128) % 256 := by
      rw [show (256 : Nat) = 2 ^ 8 from rfl, Nat.or_mod_two_pow, Nat.or_mod_two_pow, Nat.mod_mod]
    rw [l, this]
    omega

theorem invoke_hosted {σ τ} (obj : Endpoint → SetupPacket → τ → HRes × τ) (h : Nat) (env : Env σ)
    (w : World (σ × τ)) (i : Iface) (ep : Endpoint) (len : UInt32) (setup : SetupPacket)
    (data : Bytes) (hp : w.ifPoisoned h = false) :
    ((hosting obj h env).invoke w (.iface h i ep len setup data)).1
      = (obj ep setup w.user.2).1.toOutcome ∧
    ((hosting obj h env).invoke w (.iface h i ep len setup data)).2.user.2
      = (obj ep setup w.user.2).2 ∧
    (((hosting obj h env).invoke w (.iface h i ep len setup data)).2.ifPoisoned h = true ↔
      (obj ep setup w.user.2).1 = .panic) := by
  simp only [Env.invoke, hp, hosting, if_true]
  cases (obj ep setup w.user.2).1 <;> simp [hp, HRes.toOutcome]

theorem invoke_other {σ τ} (obj : Endpoint → SetupPacket → τ → HRes × τ) (h : Nat) (env : Env σ)
    (w : World (σ × τ)) (c : HCall)
    (hc : ∀ i ep len setup data, c = .iface h i ep len setup data → w.ifPoisoned h = true) :
    ((hosting obj h env).invoke w c).2.user.2 = w.user.2 ∧
    ((hosting obj h env).invoke w c).2.ifPoisoned h = w.ifPoisoned h := by
  cases c with
  | dev h' l s d =>
    simp only [Env.invoke, hosting]
    by_cases hp : w.devPoisoned h' = true
    · simp [hp]
    · rw [if_neg hp]
      cases (env.dev h' l s d w.user.1).1 <;> exact ⟨rfl, rfl⟩
  | iface h' i e l s d =>
    simp only [Env.invoke, hosting]
    by_cases hp : w.ifPoisoned h' = true
    · simp [hp]
    · rw [if_neg hp]
      by_cases hh : h' = h
      · subst hh; exact absurd (hc _ _ _ _ _ rfl) hp
      · simp only [if_neg hh]
        cases (env.iface h' i e l s d w.user.1).1 <;>
          first | exact ⟨rfl, rfl⟩ | exact ⟨rfl, if_neg (fun e => hh e.symm)⟩

theorem submit_eq {σ} (env : Env σ) (p : Profile) (s : Shared σ) (j : Job) (ep : Endpoint)
    (intf : Option Iface) (hf : endpointAt j.device j.address = some (ep, intf)) :
    s.submit env p j.device j.header j.len j.setup j.data =
      (match (j.device.handleUrb env p ep intf j.len (setupAt j.setup) j.data s.world).1 with
        | .ok b => .ok (usbipRetSubmitSuccess { j.header with command := 3 } 0 0 b [])
        | .err _ => .ok (usbipRetSubmitFail { j.header with command := 3 })
        | .panic => .panic
        | .diverge => .diverge,
       { s with world :=
          (j.device.handleUrb env p ep intf j.len (setupAt j.setup) j.data s.world).2 }) := by
  unfold Job.address at hf
  rw [← jobAddress_eq, endpointAt_eq] at hf
  unfold Shared.submit
  dsimp only
  rw [hf]
  dsimp only
  rw [setupAt_eq]
  rcases j.device.handleUrb env p ep intf j.len (SetupPacket.parse j.setup) j.data s.world with ⟨r, w⟩
  cases r <;> rfl

theorem submit_missing {σ} (env : Env σ) (p : Profile) (s : Shared σ) (j : Job)
    (hf : endpointAt j.device j.address = none) :
    s.submit env p j.device j.header j.len j.setup j.data =
      (.ok (usbipRetSubmitFail { j.header with command := 3 }), s) := by
  unfold Job.address at hf
  rw [← jobAddress_eq, endpointAt_eq] at hf
  unfold Shared.submit
  dsimp only
  rw [hf]
  rfl

/-- The object after a submit. -/
theorem submit_object {σ τ} (obj : Endpoint → SetupPacket → τ → HRes × τ) (h : Nat) (env : Env σ)
    (p : Profile) (s : Shared (σ × τ)) (j : Job) :
    match j.urb h s.world with
    | some (ep, setup) =>
      (s.submit (hosting obj h env) p j.device j.header j.len j.setup j.data).2.world.user.2
        = (obj ep setup s.world.user.2).2 ∧
      ((s.submit (hosting obj h env) p j.device j.header j.len j.setup j.data).1 =
        match (obj ep setup s.world.user.2).1 with
        | .ok b => .ok (usbipRetSubmitSuccess { j.header with command := 3 } 0 0 b [])
        | .err _ => .ok (usbipRetSubmitFail { j.header with command := 3 })
        | .panic => .panic) ∧
      ((s.submit (hosting obj h env) p j.device j.header j.len j.setup j.data).2.world.ifPoisoned h
        = true ↔ (obj ep setup s.world.user.2).1 = .panic)
    | none =>
      (s.submit (hosting obj h env) p j.device j.header j.len j.setup j.data).2.world.user.2
        = s.world.user.2 ∧
      (s.submit (hosting obj h env) p j.device j.header j.len j.setup j.data).2.world.ifPoisoned h
        = s.world.ifPoisoned h := by
  unfold Job.urb Job.call
  cases hf : endpointAt j.device j.address with
  | none => rw [submit_missing _ p s j hf]; exact ⟨rfl, rfl⟩
  | some r =>
    obtain ⟨ep, intf⟩ := r
    rw [submit_eq _ p s j ep intf hf]
    dsimp only
    rw [handleUrb_addressee]
    cases hc : addressee j.device ep intf j.len (setupAt j.setup) j.data with
    | none =>
      dsimp only
      split <;> exact ⟨rfl, rfl⟩
    | some c =>
      cases c with
      | dev h' l st d =>
        exact invoke_other obj h env _ _ (fun _ _ _ _ _ e => by cases e)
      | iface h' i e l st d =>
        dsimp only
        by_cases hh : h' = h ∧ s.world.ifPoisoned h = false
        · rw [if_pos hh]
          obtain ⟨rfl, hp⟩ := hh
          obtain ⟨h1, h2, h3⟩ := invoke_hosted obj h' env s.world i e l st d hp
          dsimp only
          refine ⟨h2, ?_, h3⟩
          rw [h1]
          cases (obj e st s.world.user.2).1 <;> rfl
        · rw [if_neg hh]
          refine invoke_other obj h env _ _ (fun i' e' l' st' d' heq => ?_)
          cases heq
          cases hp : s.world.ifPoisoned h with
          | true => rfl
          | false => exact absurd ⟨rfl, hp⟩ hh

/-- What `write_all` puts on the wire. -/
def wired (p : Profile) (w : WriteRes) : Outcome Resp → Bytes
  | .ok resp =>
    match resp.toBytes p with
    | .ok bytes =>
      match w with
      | .full => bytes
      | .fail n _ => bytes.take n
      | .cut n => bytes.take n
    | _ => []
  | _ => []

theorem finish_output (p : Profile) (x : Conn) (rest : Stream) (cmd : Cmd) (w : WriteRes)
    (cur : Option Bytes) (r : Outcome Resp) :
    (x.finish p rest cmd w cur r).output = x.output ++ wired p w r := by
  cases r with
  | ok resp =>
    simp only [Conn.finish, wired]
    cases resp.toBytes p with
    | ok b => cases w <;> rfl
    | _ => simp
  | _ => simp [Conn.finish, wired]

theorem bigEndian_be32 (n : Nat) (h : n < 4294967296) : bigEndian 4 n = be32 (asU32 n) := by
  simp only [bigEndian, be32, asU32, UInt32.toNat_ofNat', List.cons.injEq, and_true]
  refine ⟨?_, ?_, ?_, ?_⟩ <;> apply u8_ext <;> simp only [UInt8.toNat_ofNat'] <;> omega

theorem take_drop_prefix {α} (l : List α) (n k : Nat) : (l.take n).drop k <+: l.drop k := by
  rw [List.drop_take]
  exact List.take_prefix _ _

theorem wired_carries (p : Profile) (w : WriteRes) (h : Header) (ep : Endpoint) (r : HRes) :
    Carries ⟨ep, h.direction, w, wired p w (match r with
        | .ok b => .ok (usbipRetSubmitSuccess { h with command := 3 } 0 0 b [])
        | .err _ => .ok (usbipRetSubmitFail { h with command := 3 })
        | .panic => .panic)⟩ r := by
  have hdr : ∀ h : Header, h.toBytes.length = 20 := Header.toBytes_length
  have dropHdr : ∀ (h : Header) (l : Bytes), (h.toBytes ++ l).drop 20 = l := by
    intro h l; rw [List.drop_append_of_le_length (by rw [hdr]; exact Nat.le_refl _),
      List.drop_of_length_le (by rw [hdr]; exact Nat.le_refl _), List.nil_append]
  cases r with
  | panic => rfl
  | err e =>
    have hb : (usbipRetSubmitFail { h with command := 3 }).toBytes p = .ok
        (({ h with command := 3 } : Header).toBytes ++ be32 1 ++ be32 0 ++ be32 0 ++ be32 0
          ++ be32 0 ++ List.replicate 8 0 ++ [] ++ []) := by
      simp only [usbipRetSubmitFail, Resp.toBytes]
      rw [debugAssert_true p (by decide), Outcome.bind_ok, debugAssert_true p (by simp [asU32])]
      rfl
    simp only [Carries, Sent.data, wired, hb]
    have hlen : (({ h with command := 3 } : Header).toBytes ++ be32 1 ++ be32 0 ++ be32 0 ++ be32 0
          ++ be32 0 ++ List.replicate 8 0 ++ [] ++ []).length = 48 := by simp
    refine ⟨?_, ?_⟩
    · cases w with
      | full => exact List.drop_of_length_le (by rw [hlen]; exact Nat.le_refl _)
      | fail n e =>
        refine List.drop_of_length_le ?_
        rw [List.length_take, hlen]; exact Nat.min_le_right _ _
      | cut n =>
        refine List.drop_of_length_le ?_
        rw [List.length_take, hlen]; exact Nat.min_le_right _ _
    · rintro rfl
      simp only [List.append_assoc]
      rw [dropHdr]
      rfl
  | ok b =>
    simp only [Carries, Sent.data]
    cases hb : (usbipRetSubmitSuccess { h with command := 3 } 0 0 b []).toBytes p with
    | ok bytes =>
      have hb' := hb
      simp only [usbipRetSubmitSuccess, Resp.toBytes, Outcome.bind_eq_ok] at hb'
      obtain ⟨_, _, _, _, hb'⟩ := hb'
      simp only [Outcome.pure_eq, Outcome.ok.injEq] at hb'
      have hpre : ∃ l : Bytes, l.length = 48 ∧ bytes = l ++ b ∧
          (l.drop 20).take 8 = [0, 0, 0, 0] ++ be32 (asU32 b.length) := by
        refine ⟨_, ?_, by rw [← hb', List.append_nil], ?_⟩
        · simp
        · simp only [List.append_assoc]
          rw [dropHdr]
          rfl
      obtain ⟨l, hl, rfl, hl8⟩ := hpre
      have hd : (l ++ b).drop 48 = b := by rw [← hl, List.drop_left]
      simp only [wired, hb]
      refine ⟨?_, ?_⟩
      · cases w with
        | full => rw [hd]; exact List.prefix_rfl
        | fail n e =>
          have := take_drop_prefix (l ++ b) n 48
          rwa [hd] at this
        | cut n =>
          have := take_drop_prefix (l ++ b) n 48
          rwa [hd] at this
      · rintro _ rfl hlt
        refine ⟨hd, by rw [List.length_append, hl], ?_⟩
        rw [bigEndian_be32 _ hlt, ← hl8, List.drop_append_of_le_length (by omega),
          List.take_append_of_le_length (by rw [List.length_drop]; omega)]
    | err e => exact absurd hb (by
        simp only [usbipRetSubmitSuccess, Resp.toBytes, debugAssert]
        repeat' split
        all_goals simp [bind, Outcome.bind, pure])
    | diverge => exact absurd hb (by
        simp only [usbipRetSubmitSuccess, Resp.toBytes, debugAssert]
        repeat' split
        all_goals simp [bind, Outcome.bind, pure])
    | panic =>
      simp only [wired, hb]
      refine ⟨by simp, fun hdir _ _ => ?_⟩
      exfalso
      simp only [usbipRetSubmitSuccess, Resp.toBytes] at hb
      rw [debugAssert_true p (by decide), Outcome.bind_ok, debugAssert_true p (by
        rcases hdir with hdir | rfl
        · have hdir' : h.direction = dirIn := by
            apply u32_ext
            rw [hdir]; decide
          simp [hdir']
        · simp [asU32])] at hb
      simp [bind, Outcome.bind, pure] at hb

/-- One step, as far as the object is concerned. -/
theorem step_observed {σ τ α} (obj : Endpoint → SetupPacket → τ → HRes × τ) (act : α → τ → τ)
    (h : Nat) (env : Env σ) (p : Profile) (s : Sys (σ × τ)) (e : HostedEvent σ α) :
    match observe (hosting obj h env) act h p s e with
    | none => (s.step (hosting obj h env) p (e.event act)).shared.world.user.2
        = s.shared.world.user.2 ∧
      ((∀ f, e ≠ .server (.user f (some (.iface h)))) →
        (s.step (hosting obj h env) p (e.event act)).shared.world.ifPoisoned h
          = s.shared.world.ifPoisoned h)
    | some (.app a, o) => o = none ∧ (s.step (hosting obj h env) p (e.event act)).shared.world.user.2
        = act a s.shared.world.user.2 ∧
      (s.step (hosting obj h env) p (e.event act)).shared.world.ifPoisoned h
        = s.shared.world.ifPoisoned h
    | some (.urb ep st, o) => ∃ r, o = some r ∧ r.ep = ep ∧
        (s.step (hosting obj h env) p (e.event act)).shared.world.user.2
          = (obj ep st s.shared.world.user.2).2 ∧
        Carries r (obj ep st s.shared.world.user.2).1 ∧
        ((s.step (hosting obj h env) p (e.event act)).shared.world.ifPoisoned h = true ↔
          (obj ep st s.shared.world.user.2).1 = .panic) := by
  cases e with
  | app a => exact ⟨rfl, rfl, rfl⟩
  | server e =>
    cases e with
    | connect c i =>
      simp only [observe, HostedEvent.event, Sys.step]
      cases s.conns c <;> exact ⟨rfl, fun _ => rfl⟩
    | cancel c =>
      simp only [observe, HostedEvent.event, Sys.step]
      cases s.conns c with
      | none => exact ⟨rfl, fun _ => rfl⟩
      | some x => dsimp only; split <;> exact ⟨rfl, fun _ => rfl⟩
    | addDevice d => exact ⟨rfl, fun _ => rfl⟩
    | removeDevice b =>
      simp only [observe, HostedEvent.event, Sys.step]
      rcases removeDevice_cases s.shared b with ⟨d, l1, l2, _, _, _, h⟩ | ⟨_, _, h⟩ | ⟨_, _, h⟩ <;>
        rw [h] <;> exact ⟨rfl, fun _ => rfl⟩
    | user f crash =>
      cases crash with
      | none => exact ⟨rfl, fun _ => rfl⟩
      | some k =>
        cases k with
        | dev k => exact ⟨rfl, fun _ => rfl⟩
        | iface k =>
          refine ⟨rfl, fun hn => ?_⟩
          have : h ≠ k := fun e => hn f (by rw [e])
          simp [HostedEvent.event, Sys.step, World.used, World.poison, this]
    | iterate c w =>
      simp only [observe, HostedEvent.event, job]
      cases hx : s.conns c with
      | none => simp only [Sys.step, hx, implies_true, and_self]
      | some x =>
        dsimp only
        by_cases hr : x.status = .running
        case neg => rw [if_neg hr]; simp only [Sys.step, hx, if_neg hr, implies_true, and_self]
        rw [if_pos hr]
        have hstep : s.step (hosting obj h env) p (.iterate c w)
            = { shared := (x.iterate (hosting obj h env) p s.shared w).1
                conns := setConn s.conns c (x.iterate (hosting obj h env) p s.shared w).2 } := by
          simp only [Sys.step, hx, if_pos hr]
        have quiet : (∀ cmd rest, readCommand p x.input ≠ .ok (cmd, rest)) →
            (x.iterate (hosting obj h env) p s.shared w).1.world = s.shared.world := by
          intro hn
          unfold Conn.iterate
          cases hc : readCommand p x.input with
          | ok r => exact absurd hc (hn r.1 r.2)
          | err e =>
            dsimp only
            cases hrel : s.shared.release x.current with
            | none => rfl
            | some s' =>
              cases hcur : x.current with
              | none => rw [hcur] at hrel; simp only [Shared.release, Option.some.injEq] at hrel; subst hrel; rfl
              | some id =>
                rw [hcur] at hrel
                simp only [Shared.release] at hrel
                cases hg : amGet id s.shared.used with
                | none => rw [hg] at hrel; simp at hrel
                | some d => rw [hg] at hrel; simp only [Option.some.injEq] at hrel; subst hrel; rfl
          | _ => rfl
        cases hc : readCommand p x.input with
        | ok r =>
          obtain ⟨cmd, rest⟩ := r
          have hit := iterate_finish (hosting obj h env) p s.shared x w cmd rest hc
          have e1 : (s.step (hosting obj h env) p (.iterate c w)).shared
              = (s.shared.serve (hosting obj h env) p x.current cmd).2.1 := by rw [hstep, hit]
          have e2 : newlySent s (s.step (hosting obj h env) p (.iterate c w)) c
              = wired p w (s.shared.serve (hosting obj h env) p x.current cmd).1 := by
            rw [hstep, hit]
            simp only [newlySent, hx, setConn, if_true, finish_output, List.drop_left]
          cases cmd with
          | reqDevlist st => dsimp only; rw [e1]; exact ⟨rfl, fun _ => rfl⟩
          | reqImport st b =>
            dsimp only; rw [e1]
            simp only [Shared.serve, Shared.import]
            split <;> exact ⟨rfl, fun _ => rfl⟩
          | unlink hd n => dsimp only; rw [e1]; exact ⟨rfl, fun _ => rfl⟩
          | submit hd a len b n c' setup data iso =>
            dsimp only
            rw [e2, e1]
            cases hd' : x.current.bind (fun id => amGet id s.shared.used) with
            | none => simp only [Option.map_none, Shared.serve, hd', implies_true, and_self]
            | some d =>
              simp only [Option.map_some, Shared.serve, hd']
              have hs := submit_object obj h env p s.shared ⟨d, hd, len, setup, data⟩
              cases hu : Job.urb h s.shared.world ⟨d, hd, len, setup, data⟩ with
              | none => rw [hu] at hs; exact ⟨hs.1, fun _ => hs.2⟩
              | some r =>
                obtain ⟨ep, st⟩ := r
                rw [hu] at hs
                obtain ⟨h1, h2, h3⟩ := hs
                dsimp only at h1 h2 h3 ⊢
                refine ⟨_, rfl, rfl, h1, ?_, h3⟩
                rw [h2]
                exact wired_carries p w hd ep _
        | err e =>
          dsimp only; rw [hstep]
          rw [quiet (fun cmd rest => by rw [hc]; simp)]
          exact ⟨rfl, fun _ => rfl⟩
        | panic =>
          dsimp only; rw [hstep]
          rw [quiet (fun cmd rest => by rw [hc]; simp)]
          exact ⟨rfl, fun _ => rfl⟩
        | diverge =>
          dsimp only; rw [hstep]
          rw [quiet (fun cmd rest => by rw [hc]; simp)]
          exact ⟨rfl, fun _ => rfl⟩

/-- Something is sent for URBs, with the right endpoint recorded, and only for URBs. -/
def Shaped {α} : Op α × Option Sent → Prop
  | (.app _, none) => True
  | (.urb ep _, some r) => r.ep = ep
  | _ => False

/-- A whole history, as far as the object is concerned. -/
theorem run_observed {σ τ α} (obj : Endpoint → SetupPacket → τ → HRes × τ) (act : α → τ → τ)
    (h : Nat) (env : Env σ) (p : Profile) (es : List (HostedEvent σ α)) : ∀ s : Sys (σ × τ),
    let obs := observations (hosting obj h env) act h p s es
    (s.run (hosting obj h env) p (es.map (HostedEvent.event act))).shared.world.user.2
      = (objRun obj act s.shared.world.user.2 (obs.map Prod.fst)).2 ∧
    Pointwise Carries (obs.filterMap Prod.snd)
      (objRun obj act s.shared.world.user.2 (obs.map Prod.fst)).1 ∧
    ∀ o ∈ obs, Shaped o := by
  induction es with
  | nil => intro s; exact ⟨rfl, .nil, fun _ h => absurd h (by simp [observations])⟩
  | cons e es ih =>
    intro s
    have hst := step_observed obj act h env p s e
    have hrun : s.run (hosting obj h env) p ((e :: es).map (HostedEvent.event act))
        = (s.step (hosting obj h env) p (e.event act)).run (hosting obj h env) p
          (es.map (HostedEvent.event act)) := rfl
    obtain ⟨i1, i2, i3⟩ := ih (s.step (hosting obj h env) p (e.event act))
    intro obs
    have hobs : obs = (observe (hosting obj h env) act h p s e).toList ++
      observations (hosting obj h env) act h p (s.step (hosting obj h env) p (e.event act)) es := rfl
    rw [hobs, hrun]
    cases ho : observe (hosting obj h env) act h p s e with
    | none =>
      rw [ho] at hst
      rw [hst.1] at i1 i2
      exact ⟨i1, i2, i3⟩
    | some r =>
      obtain ⟨op, o⟩ := r
      rw [ho] at hst
      cases op with
      | app a =>
        obtain ⟨rfl, hst, _⟩ := hst
        rw [hst] at i1 i2
        refine ⟨i1, i2, ?_⟩
        intro o ho
        rcases List.mem_cons.mp ho with rfl | ho
        · trivial
        · exact i3 o ho
      | urb ep st =>
        obtain ⟨r, rfl, rfl, hst, hcar, _⟩ := hst
        rw [hst] at i1 i2
        refine ⟨i1, .cons hcar i2, ?_⟩
        intro o ho
        rcases List.mem_cons.mp ho with rfl | ho
        · exact rfl
        · exact i3 o ho

end Usbip
