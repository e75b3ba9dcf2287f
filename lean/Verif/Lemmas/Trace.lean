import Verif.Spec.Trace
import Verif.Lemmas.Hosted
/-! Helper lemmas: handler invocations over whole histories. -/

namespace Usbip
open Spec

theorem target_poisoned {σ} (w : World σ) (c : HCall) : crashed w c.target = c.poisoned w := by
  cases c <;> rfl

/-- Who is poisoned after an invocation. -/
theorem invoke_target_crashed {σ} (env : Env σ) (w : World σ) (c : HCall) (hp : c.poisoned w = false) (k : HandlerId) :
    crashed (env.invoke w c).2 k = true ↔
      crashed w k = true ∨ (k = c.target ∧ (c.answer env w.user).1 = .panic) := by
  cases c with
  | iface h i e l s d =>
    simp only [HCall.poisoned] at hp
    simp only [Env.invoke, HCall.answer, HCall.target, hp, Bool.false_eq_true, if_false]
    cases hr : (env.iface h i e l s d w.user).1 with
    | panic =>
      cases k with
      | iface k =>
        by_cases hk : k = h
        · subst hk; simp [crashed]
        · simp [crashed, hk]
      | dev k => simp [crashed]
    | ok b => cases k <;> simp [crashed]
    | err e => cases k <;> simp [crashed]
  | dev h l s d =>
    simp only [HCall.poisoned] at hp
    simp only [Env.invoke, HCall.answer, HCall.target, hp, Bool.false_eq_true, if_false]
    cases hr : (env.dev h l s d w.user).1 with
    | panic =>
      cases k with
      | dev k =>
        by_cases hk : k = h
        · subst hk; simp [crashed]
        · simp [crashed, hk]
      | iface k => simp [crashed]
    | ok b => cases k <;> simp [crashed]
    | err e => cases k <;> simp [crashed]

theorem invoke_poisoned {σ} (env : Env σ) (w : World σ) (c : HCall) (hp : c.poisoned w = true) :
    (env.invoke w c).2 = w := by
  cases c <;> simp_all [Env.invoke, HCall.poisoned]

/-- The handlers after a submit. -/
theorem submit_invokes {σ} (env : Env σ) (p : Profile) (s : Shared σ) (j : Job) :
    match endpointAt j.device j.address, j.invocation s.world with
    | some _, some c =>
      (s.submit env p j.device j.header j.len j.setup j.data).2.world.user = (c.answer env s.world.user).2 ∧
      ((s.submit env p j.device j.header j.len j.setup j.data).1 =
        match (c.answer env s.world.user).1 with
        | .ok b => .ok (usbipRetSubmitSuccess { j.header with command := 3 } 0 0 b [])
        | .err _ => .ok (usbipRetSubmitFail { j.header with command := 3 })
        | .panic => .panic) ∧
      (∀ k, crashed (s.submit env p j.device j.header j.len j.setup j.data).2.world k = true ↔
        crashed s.world k = true ∨ (k = c.target ∧ (c.answer env s.world.user).1 = .panic))
    | _, _ => (s.submit env p j.device j.header j.len j.setup j.data).2.world = s.world := by
  unfold Job.invocation Job.call
  cases hf : endpointAt j.device j.address with
  | none => rw [submit_missing _ p s j hf]
  | some r =>
    obtain ⟨ep, intf⟩ := r
    rw [submit_eq _ p s j ep intf hf]
    dsimp only
    rw [handleUrb_addressee]
    cases hc : addressee j.device ep intf j.len (setupAt j.setup) j.data with
    | none =>
      dsimp only
      split <;> rfl
    | some c =>
      dsimp only
      cases hp : c.poisoned s.world with
      | true =>
        rw [target_poisoned, hp]
        exact invoke_poisoned env s.world c hp
      | false =>
        rw [target_poisoned, hp]
        have hI := invoke_eq env s.world c
        simp only [hp, Bool.false_eq_true, if_false] at hI
        refine ⟨hI.2, ?_, invoke_target_crashed env s.world c hp⟩
        rw [hI.1]
        cases (c.answer env s.world.user).1 <;> rfl

/-- One step, as far as the handlers are concerned. -/
theorem step_traced {σ} (env : Env σ) (p : Profile) (s : Sys σ) (e : Event σ) :
    match witness env p s e with
    | none => (s.step env p e).shared.world = s.shared.world
    | some (.user f, o) => o = none ∧ (s.step env p e).shared.world.user = f s.shared.world.user ∧
        ∃ crash, e = .user f crash ∧
          ∀ k, crashed (s.step env p e).shared.world k = true ↔ crashed s.shared.world k = true ∨ crash = some k
    | some (.call c, o) => ∃ r, o = some r ∧ c.poisoned s.shared.world = false ∧
        (s.step env p e).shared.world.user = (c.answer env s.shared.world.user).2 ∧
        Carries r (c.answer env s.shared.world.user).1 ∧
        (∀ k, crashed (s.step env p e).shared.world k = true ↔
          crashed s.shared.world k = true ∨ (k = c.target ∧ (c.answer env s.shared.world.user).1 = .panic)) := by
  cases e with
  | connect c i =>
    simp only [witness, Sys.step]
    cases s.conns c <;> rfl
  | cancel c =>
    simp only [witness, Sys.step]
    cases s.conns c with
    | none => rfl
    | some x => dsimp only; split <;> rfl
  | addDevice d => rfl
  | removeDevice b =>
    simp only [witness, Sys.step]
    rcases removeDevice_cases s.shared b with ⟨d, l1, l2, _, _, _, h⟩ | ⟨_, _, h⟩ | ⟨_, _, h⟩ <;>
      rw [h]
  | user f crash => exact ⟨rfl, used_user _ _ _, crash, rfl, crashed_used _ _ _⟩
  | iterate c w =>
    simp only [witness, job]
    cases hx : s.conns c with
    | none => simp only [Sys.step, hx]
    | some x =>
      dsimp only
      by_cases hr : x.status = .running
      case neg => rw [if_neg hr]; simp only [Sys.step, hx, if_neg hr]
      rw [if_pos hr]
      have hstep : s.step env p (.iterate c w)
          = { shared := (x.iterate env p s.shared w).1
              conns := setConn s.conns c (x.iterate env p s.shared w).2 } := by
        simp only [Sys.step, hx, if_pos hr]
      have quiet : (∀ cmd rest, readCommand p x.input ≠ .ok (cmd, rest)) →
          (x.iterate env p s.shared w).1.world = s.shared.world := by
        intro hn
        unfold Conn.iterate
        cases hc : readCommand p x.input with
        | ok r => exact absurd hc (hn r.1 r.2)
        | err e =>
          dsimp only
          cases hrel : s.shared.release x.current with
          | none => rfl
          | some s' =>
            cases hcur : x.current with
            | none => rw [hcur] at hrel; simp only [Shared.release, Option.some.injEq] at hrel; subst hrel; rfl
            | some id =>
              rw [hcur] at hrel
              simp only [Shared.release] at hrel
              cases hg : amGet id s.shared.used with
              | none => rw [hg] at hrel; simp at hrel
              | some d => rw [hg] at hrel; simp only [Option.some.injEq] at hrel; subst hrel; rfl
        | _ => rfl
      cases hc : readCommand p x.input with
      | ok r =>
        obtain ⟨cmd, rest⟩ := r
        have hit := iterate_finish env p s.shared x w cmd rest hc
        have e1 : (s.step env p (.iterate c w)).shared = (s.shared.serve env p x.current cmd).2.1 := by
          rw [hstep, hit]
        have e2 : newlySent s (s.step env p (.iterate c w)) c
            = wired p w (s.shared.serve env p x.current cmd).1 := by
          rw [hstep, hit]
          simp only [newlySent, hx, setConn, if_true, finish_output, List.drop_left]
        cases cmd with
        | reqDevlist st => dsimp only; rw [e1]; rfl
        | reqImport st b =>
          dsimp only; rw [e1]
          simp only [Shared.serve, Shared.import]
          split <;> rfl
        | unlink hd n => dsimp only; rw [e1]; rfl
        | submit hd a len b n c' setup data iso =>
          dsimp only
          rw [e2, e1]
          cases hd' : x.current.bind (fun id => amGet id s.shared.used) with
          | none => simp only [Option.map_none, Shared.serve, hd']
          | some d =>
            simp only [Option.map_some, Shared.serve, hd']
            have hs := submit_invokes env p s.shared ⟨d, hd, len, setup, data⟩
            cases hf : endpointAt d (Job.address ⟨d, hd, len, setup, data⟩) with
            | none => rw [hf] at hs; exact hs
            | some ep =>
              rw [hf] at hs
              cases hu : Job.invocation s.shared.world ⟨d, hd, len, setup, data⟩ with
              | none => rw [hu] at hs; exact hs
              | some r =>
                rw [hu] at hs
                obtain ⟨h1, h2, h3⟩ := hs
                dsimp only at h1 h2 h3 ⊢
                have hp : r.poisoned s.shared.world = false := by
                  unfold Job.invocation at hu
                  split at hu
                  · split at hu
                    · simp at hu
                    · rename_i hcr
                      simp only [Option.some.injEq] at hu
                      subst hu
                      rw [← target_poisoned]
                      simpa using hcr
                  · simp at hu
                refine ⟨_, rfl, hp, h1, ?_, h3⟩
                rw [h2]
                exact wired_carries p w hd ep.1 _
      | err e =>
        dsimp only; rw [hstep]
        exact quiet (fun cmd rest => by rw [hc]; simp)
      | panic =>
        dsimp only; rw [hstep]
        exact quiet (fun cmd rest => by rw [hc]; simp)
      | diverge =>
        dsimp only; rw [hstep]
        exact quiet (fun cmd rest => by rw [hc]; simp)

end Usbip
