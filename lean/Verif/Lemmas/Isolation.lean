import Verif.Spec.Isolation
import Verif.Lemmas.Trace
import Verif.Props.Device
/-! Helper lemmas for the isolation of clients. -/

namespace Usbip
open Spec

theorem addressee_handler {d : Device} {ep : Endpoint} {o : Option Iface} {len : UInt32}
    {setup : SetupPacket} {data : Bytes} {c : HCall} (ho : ∀ i, o = some i → i ∈ d.interfaces)
    (h : addressee d ep o len setup data = some c) : c.target ∈ handlersOf d := by
  unfold addressee at h
  unfold handlersOf
  rw [List.mem_append]
  split at h
  · split at h
    · simp at h
    · split at h
      · rw [Option.map_eq_some_iff] at h
        obtain ⟨i, hi, rfl⟩ := h
        exact .inl (List.mem_map.mpr ⟨i, List.mem_of_getElem? hi, rfl⟩)
      · split at h
        · rw [Option.map_eq_some_iff] at h
          obtain ⟨k, hk, rfl⟩ := h
          exact .inr (List.mem_map.mpr ⟨k, by simp [hk], rfl⟩)
        · simp at h
  · split at h
    · rw [Option.map_eq_some_iff] at h
      obtain ⟨i, hi, rfl⟩ := h
      exact .inl (List.mem_map.mpr ⟨i, ho i hi, rfl⟩)
    · simp at h

theorem findEp_owner {d : Device} {a : UInt8} {ep : Endpoint} {o : Option Iface}
    (h : endpointAt d a = some (ep, o)) : ∀ i, o = some i → i ∈ d.interfaces := by
  intro i hi
  rw [endpointAt_eq] at h
  unfold Device.findEp at h
  split at h
  · simp only [Option.some.injEq, Prod.mk.injEq] at h; rw [← h.2] at hi; simp at hi
  · split at h
    · simp only [Option.some.injEq, Prod.mk.injEq] at h; rw [← h.2] at hi; simp at hi
    · obtain ⟨l1, f, l2, e1, e2, ho, hl, _⟩ := (findEpIfs_some _ _ _ _).mp h
      rw [hi, Option.some.injEq] at ho
      subst ho
      rw [hl]; simp

/-- A member of the family is invoked. -/
theorem invoke_family {σ τ} (who : HandlerId → Bool) (others : Env σ) (mine : Env τ)
    (w : World (σ × τ)) (c : HCall) (hc : who c.target = true) :
    ((beside who others mine).invoke w c).1 = (mine.invoke (ownWorld who w) c).1 ∧
    ownWorld who ((beside who others mine).invoke w c).2 = (mine.invoke (ownWorld who w) c).2 := by
  cases c with
  | iface h i e l s d =>
    simp only [HCall.target] at hc
    simp only [Env.invoke, beside, ownWorld, hc, if_true, Bool.true_and]
    split
    · exact ⟨rfl, rfl⟩
    · cases hr : (mine.iface h i e l s d w.user.2).1 with
      | panic =>
        refine ⟨rfl, ?_⟩
        simp only [World.mk.injEq, true_and, and_true]
        funext k
        by_cases hk : k = h
        · subst hk; simp [hc]
        · simp [hk]
      | ok b => exact ⟨rfl, rfl⟩
      | err e => exact ⟨rfl, rfl⟩
  | dev h l s d =>
    simp only [HCall.target] at hc
    simp only [Env.invoke, beside, ownWorld, hc, if_true, Bool.true_and]
    split
    · exact ⟨rfl, rfl⟩
    · cases hr : (mine.dev h l s d w.user.2).1 with
      | panic =>
        refine ⟨rfl, ?_⟩
        simp only [World.mk.injEq, true_and]
        funext k
        by_cases hk : k = h
        · subst hk; simp [hc]
        · simp [hk]
      | ok b => exact ⟨rfl, rfl⟩
      | err e => exact ⟨rfl, rfl⟩

/-- Another handler is invoked. -/
theorem invoke_foreign {σ τ} (who : HandlerId → Bool) (others : Env σ) (mine : Env τ)
    (w : World (σ × τ)) (c : HCall) (hc : who c.target = false) :
    ownWorld who ((beside who others mine).invoke w c).2 = ownWorld who w := by
  cases c with
  | iface h i e l s d =>
    simp only [HCall.target] at hc
    simp only [Env.invoke, beside, ownWorld, hc, Bool.false_eq_true, if_false]
    split
    · rfl
    · cases hr : (others.iface h i e l s d w.user.1).1 with
      | panic =>
        simp only [World.mk.injEq, true_and, and_true]
        funext k
        by_cases hk : k = h
        · subst hk; simp [hc]
        · simp [hk]
      | ok b => rfl
      | err e => rfl
  | dev h l s d =>
    simp only [HCall.target] at hc
    simp only [Env.invoke, beside, ownWorld, hc, Bool.false_eq_true, if_false]
    split
    · rfl
    · cases hr : (others.dev h l s d w.user.1).1 with
      | panic =>
        simp only [World.mk.injEq, true_and]
        funext k
        by_cases hk : k = h
        · subst hk; simp [hc]
        · simp [hk]
      | ok b => rfl
      | err e => rfl

/-- A submit on a device of the family. -/
theorem submit_mine {σ τ} (who : HandlerId → Bool) (others : Env σ) (mine : Env τ) (p : Profile)
    (s : Shared (σ × τ)) (t : Shared τ) (hw : ownWorld who s.world = t.world) (j : Job)
    (hd : ∀ k ∈ handlersOf j.device, who k = true) :
    (s.submit (beside who others mine) p j.device j.header j.len j.setup j.data).1
      = (t.submit mine p j.device j.header j.len j.setup j.data).1 ∧
    ownWorld who (s.submit (beside who others mine) p j.device j.header j.len j.setup j.data).2.world
      = (t.submit mine p j.device j.header j.len j.setup j.data).2.world := by
  cases hf : endpointAt j.device j.address with
  | none => rw [submit_missing _ p s j hf, submit_missing _ p t j hf]; exact ⟨rfl, hw⟩
  | some r =>
    obtain ⟨ep, intf⟩ := r
    rw [submit_eq _ p s j ep intf hf, submit_eq _ p t j ep intf hf]
    simp only [handleUrb_addressee]
    cases hc : addressee j.device ep intf j.len (setupAt j.setup) j.data with
    | none =>
      dsimp only
      by_cases hq : ep.attributes.toNat = 0 ∧ standard ep (setupAt j.setup)
      · simp only [if_pos hq]; exact ⟨trivial, hw⟩
      · simp only [if_neg hq]; exact ⟨trivial, hw⟩
    | some c =>
      dsimp only
      obtain ⟨h1, h2⟩ := invoke_family who others mine s.world c
        (hd _ (addressee_handler (findEp_owner hf) hc))
      rw [← hw, h1, h2]
      exact ⟨rfl, rfl⟩

/-- A submit on another device. -/
theorem submit_other {σ τ} (who : HandlerId → Bool) (others : Env σ) (mine : Env τ) (p : Profile)
    (s : Shared (σ × τ)) (j : Job) (hd : ∀ k ∈ handlersOf j.device, who k = false) :
    ownWorld who (s.submit (beside who others mine) p j.device j.header j.len j.setup j.data).2.world
      = ownWorld who s.world := by
  cases hf : endpointAt j.device j.address with
  | none => rw [submit_missing _ p s j hf]
  | some r =>
    obtain ⟨ep, intf⟩ := r
    rw [submit_eq _ p s j ep intf hf]
    simp only [handleUrb_addressee]
    cases hc : addressee j.device ep intf j.len (setupAt j.setup) j.data with
    | none =>
      dsimp only
      by_cases hq : ep.attributes.toNat = 0 ∧ standard ep (setupAt j.setup)
      · simp only [if_pos hq]
      · simp only [if_neg hq]
    | some c =>
      exact invoke_foreign who others mine s.world c (hd _ (addressee_handler (findEp_owner hf) hc))

theorem submit_used {σ} (env : Env σ) (p : Profile) (s : Shared σ) (j : Job) :
    (s.submit env p j.device j.header j.len j.setup j.data).2.used = s.used := by
  cases hf : endpointAt j.device j.address with
  | none => rw [submit_missing _ p s j hf]
  | some r => rw [submit_eq _ p s j r.1 r.2 hf]

/-- The handlers' world after an iteration of some connection whose device is another one. -/
theorem iterate_other {σ τ} (who : HandlerId → Bool) (others : Env σ) (mine : Env τ) (p : Profile)
    (s : Shared (σ × τ)) (x : Conn) (w : WriteRes)
    (hd : ∀ d, x.current.bind (fun id => amGet id s.used) = some d → ∀ k ∈ handlersOf d, who k = false) :
    ownWorld who (x.iterate (beside who others mine) p s w).1.world = ownWorld who s.world := by
  cases hc : readCommand p x.input with
  | ok r =>
    obtain ⟨cmd, rest⟩ := r
    rw [iterate_finish _ p s x w cmd rest hc]
    cases cmd with
    | reqDevlist st => rfl
    | reqImport st b =>
      simp only [Shared.serve, Shared.import]
      split <;> rfl
    | unlink hd n => rfl
    | submit h a len b n c' setup data iso =>
      simp only [Shared.serve]
      cases hd' : x.current.bind (fun id => amGet id s.used) with
      | none => rfl
      | some d => exact submit_other who others mine p s ⟨d, h, len, setup, data⟩ (hd _ hd')
  | err e =>
    unfold Conn.iterate
    rw [hc]
    dsimp only
    cases hrel : s.release x.current with
    | none => rfl
    | some s' =>
      cases hcur : x.current with
      | none => rw [hcur] at hrel; simp only [Shared.release, Option.some.injEq] at hrel; subst hrel; rfl
      | some id =>
        rw [hcur] at hrel
        simp only [Shared.release] at hrel
        cases hg : amGet id s.used with
        | none => rw [hg] at hrel; simp at hrel
        | some d => rw [hg] at hrel; simp only [Option.some.injEq] at hrel; subst hrel; rfl
  | panic => unfold Conn.iterate; rw [hc]
  | diverge => unfold Conn.iterate; rw [hc]

theorem urbs_head {p : Profile} {i : Stream} (h : OnlyUrbs p i) {cmd : Cmd} {rest : Stream}
    (hc : readCommand p i = .ok (cmd, rest)) :
    (∃ h a b c d e s t i, cmd = .submit h a b c d e s t i) ∨ ∃ h n, cmd = .unlink h n := by
  refine h 1 [cmd] rest ?_ cmd (List.mem_cons_self ..)
  simp only [readMany, hc]
  rfl

theorem urbs_tail {p : Profile} {i : Stream} (h : OnlyUrbs p i) {cmd : Cmd} {rest : Stream}
    (hc : readCommand p i = .ok (cmd, rest)) : OnlyUrbs p rest := by
  intro n cmds r hr cmd' hm
  refine h (n + 1) (cmd :: cmds) r ?_ cmd' (List.mem_cons_of_mem _ hm)
  simp only [readMany, hc]
  show (do let (cs, s) ← readMany p n rest; pure (cmd :: cs, s) : Outcome _) = _
  rw [hr]
  rfl

theorem finish_current {p : Profile} {x : Conn} {rest : Stream} {cmd : Cmd} {w : WriteRes}
    {cur : Option Bytes} {o : Outcome Resp} :
    (x.finish p rest cmd w cur o).current = cur ∧ (x.finish p rest cmd w cur o).input = rest := by
  cases o with
  | ok r =>
    simp only [Conn.finish]
    cases r.toBytes p with
    | ok b => cases w <;> exact ⟨rfl, rfl⟩
    | _ => exact ⟨rfl, rfl⟩
  | _ => exact ⟨rfl, rfl⟩

/-- An iteration of the client's own connection: on the server and on its own. -/
theorem iterate_mine {σ τ} (who : HandlerId → Bool) (others : Env σ) (mine : Env τ) (p : Profile)
    (s : Shared (σ × τ)) (t : Shared τ) (x : Conn) (w : WriteRes) (id : Bytes) (d : Device)
    (hw : ownWorld who s.world = t.world) (hcur : x.current = some id)
    (hs : amGet id s.used = some d) (ht : t.used = [(id, d)])
    (hd : ∀ k ∈ handlersOf d, who k = true) (hu : OnlyUrbs p x.input) :
    (x.iterate (beside who others mine) p s w).2 = (x.iterate mine p t w).2 ∧
    ((x.iterate mine p t w).2.status ≠ .running ∨
      ((x.iterate mine p t w).2.current = some id ∧ OnlyUrbs p (x.iterate mine p t w).2.input ∧
       (x.iterate (beside who others mine) p s w).1.used = s.used ∧
       (x.iterate mine p t w).1.used = t.used ∧
       ownWorld who (x.iterate (beside who others mine) p s w).1.world = (x.iterate mine p t w).1.world)) := by
  have ht' : amGet id t.used = some d := by rw [ht]; simp [amGet]
  cases hc : readCommand p x.input with
  | ok r =>
    obtain ⟨cmd, rest⟩ := r
    rw [iterate_finish _ p s x w cmd rest hc, iterate_finish _ p t x w cmd rest hc]
    rcases urbs_head hu hc with ⟨h, a, b, c, d', e, su, da, iso, rfl⟩ | ⟨h, n, rfl⟩
    · have hbs : x.current.bind (fun id => amGet id s.used) = some d := by rw [hcur]; exact hs
      have hbt : x.current.bind (fun id => amGet id t.used) = some d := by rw [hcur]; exact ht'
      simp only [Shared.serve, hbs, hbt]
      obtain ⟨h1, h2⟩ := submit_mine who others mine p s t hw ⟨d, h, b, su, da⟩ hd
      dsimp only at h1 h2
      rw [h1]
      refine ⟨rfl, .inr ⟨by rw [finish_current.1]; exact hcur, by rw [finish_current.2]; exact urbs_tail hu hc, ?_, ?_, h2⟩⟩
      · exact submit_used _ p s ⟨d, h, b, su, da⟩
      · exact submit_used _ p t ⟨d, h, b, su, da⟩
    · simp only [Shared.serve]
      exact ⟨trivial, .inr ⟨by rw [finish_current.1]; exact hcur, by rw [finish_current.2]; exact urbs_tail hu hc,
        trivial, trivial, hw⟩⟩
  | err e =>
    unfold Conn.iterate
    rw [hc]
    simp only [hcur, Shared.release, hs, ht']
    refine ⟨trivial, .inl ?_⟩
    split <;> simp
  | panic => unfold Conn.iterate; rw [hc]; exact ⟨rfl, .inl (by simp)⟩
  | diverge => unfold Conn.iterate; rw [hc]; exact ⟨rfl, .inl (by simp)⟩

/-- A connection that has ended stays as it is. -/
theorem step_ended {σ} (env : Env σ) (p : Profile) (s : Sys σ) (e : Event σ) (c : Nat) (x : Conn)
    (hx : s.conns c = some x) (hr : x.status ≠ .running) : (s.step env p e).conns c = some x := by
  cases e with
  | connect c' i =>
    simp only [Sys.step]
    cases h : s.conns c' with
    | none =>
      dsimp only
      have : c ≠ c' := by rintro rfl; rw [h] at hx; simp at hx
      simp only [setConn, if_neg this]; exact hx
    | some y => exact hx
  | iterate c' w =>
    simp only [Sys.step]
    cases h : s.conns c' with
    | none => exact hx
    | some y =>
      dsimp only
      split
      · have : c ≠ c' := by
          rintro rfl; rw [h, Option.some.injEq] at hx; subst hx; exact hr ‹_›
        simp only [setConn, if_neg this]; exact hx
      · exact hx
  | cancel c' =>
    simp only [Sys.step]
    cases h : s.conns c' with
    | none => exact hx
    | some y =>
      dsimp only
      split
      · have : c ≠ c' := by
          rintro rfl; rw [h, Option.some.injEq] at hx; subst hx; exact hr ‹_›
        simp only [setConn, if_neg this]; exact hx
      · exact hx
  | addDevice d => exact hx
  | removeDevice b => exact hx
  | user f => exact hx

/-- A step that is not an iteration or cancellation of the connection leaves it alone. -/
theorem step_elsewhere {σ} (env : Env σ) (p : Profile) (s : Sys σ) (e : Event σ) (c : Nat) (x : Conn)
    (hx : s.conns c = some x) (hi : ∀ w, e ≠ .iterate c w) (hk : e ≠ .cancel c) :
    (s.step env p e).conns c = some x := by
  cases e with
  | connect c' i =>
    simp only [Sys.step]
    cases h : s.conns c' with
    | none =>
      dsimp only
      have : c ≠ c' := by rintro rfl; rw [h] at hx; simp at hx
      simp only [setConn, if_neg this]; exact hx
    | some y => exact hx
  | iterate c' w =>
    have : c ≠ c' := by rintro rfl; exact hi w rfl
    simp only [Sys.step]
    cases h : s.conns c' with
    | none => exact hx
    | some y =>
      dsimp only
      split
      · simp only [setConn, if_neg this]; exact hx
      · exact hx
  | cancel c' =>
    have : c ≠ c' := by rintro rfl; exact hk rfl
    simp only [Sys.step]
    cases h : s.conns c' with
    | none => exact hx
    | some y =>
      dsimp only
      split
      · simp only [setConn, if_neg this]; exact hx
      · exact hx
  | addDevice d => exact hx
  | removeDevice b => exact hx
  | user f => exact hx

/-- Which devices there are after a step. -/
theorem step_onServer {σ} (env : Env σ) (p : Profile) (s : Sys σ) (h : Inv s.shared s.conns) (e : Event σ) :
    ∀ x ∈ onServer (s.step env p e).shared, x ∈ onServer s.shared ∨ e = .addDevice x := by
  intro y hy
  cases e with
  | connect c' i =>
    simp only [Sys.step] at hy
    split at hy <;> exact .inl hy
  | iterate c' w =>
    simp only [Sys.step] at hy
    split at hy
    · split at hy
      · exact .inl (((iterate_Effect env p s.shared _ w).lists h.nodup h.keyed).2.2.mem_iff.mp hy)
      · exact .inl hy
    · exact .inl hy
  | cancel c' =>
    simp only [Sys.step] at hy
    split at hy
    · split at hy <;> exact .inl hy
    · exact .inl hy
  | addDevice d =>
    simp only [Sys.step, Shared.addDevice, onServer, List.mem_append, List.mem_cons, List.not_mem_nil, or_false] at hy ⊢
    rcases hy with (hy | rfl) | hy
    · exact .inl (.inl hy)
    · exact .inr rfl
    · exact .inl (.inr hy)
  | removeDevice b =>
    simp only [Sys.step] at hy
    rcases removeDevice_cases s.shared b with ⟨d, l1, l2, hl, _, _, hr⟩ | ⟨_, _, hr⟩ | ⟨_, _, hr⟩
    · rw [hr] at hy
      left
      simp only [onServer, List.mem_append, hl, List.mem_cons] at hy ⊢
      rcases hy with (hy | hy) | hy
      · exact .inl (.inl hy)
      · exact .inl (.inr (.inr hy))
      · exact .inr hy
    · rw [hr] at hy; exact .inl hy
    · rw [hr] at hy; exact .inl hy
  | user f => exact .inl hy

theorem used_onServer {σ} {s : Shared σ} {id : Bytes} {d : Device} (h : amGet id s.used = some d) :
    d ∈ onServer s := by
  unfold onServer
  exact List.mem_append_right _ (List.mem_map.mpr ⟨(id, d), amGet_mem h, rfl⟩)

theorem onServer_unique {σ} {s : Shared σ} (h : Distinct s) {d d' : Device} (hd : d ∈ onServer s)
    (hd' : d' ∈ onServer s) (he : d.busId = d'.busId) : d = d' :=
  nodup_map_inj Device.busId _ h hd hd' he

/-! ### The two servers side by side -/

/-- The server with everybody on it, and the client alone. -/
structure Side {σ τ} (who : HandlerId → Bool) (p : Profile) (c : Nat) (id : Bytes) (d : Device)
    (s : Sys (σ × τ)) (t : Sys τ) : Prop where
  inv : Inv s.shared s.conns
  others : ∀ y ∈ onServer s.shared, y.busId ≠ id → ∀ k ∈ handlersOf y, who k = false
  conn : s.conns c = t.conns c
  going : ∃ x, s.conns c = some x ∧ (x.status = .running →
    x.current = some id ∧ OnlyUrbs p x.input ∧ amGet id s.shared.used = some d ∧
    t.shared.used = [(id, d)] ∧ ownWorld who s.shared.world = t.shared.world)

/-- The own device stays where it is while the connection goes on. -/
theorem kept {σ} (env : Env σ) (p : Profile) (s : Sys σ) (h : Inv s.shared s.conns) (e : Event σ)
    (hf : match e with
     | .addDevice d => ∀ x ∈ onServer s.shared, x.busId ≠ d.busId
     | _ => True) (c : Nat) (x : Conn) (id : Bytes) (d : Device)
    (hx : (s.step env p e).conns c = some x) (hr : x.status = .running) (hc : x.current = some id)
    (hd : amGet id s.shared.used = some d) : amGet id (s.step env p e).shared.used = some d := by
  have h' := Inv.step env p s h e hf
  obtain ⟨d', hg⟩ := amGet_of_mem (h'.held c x id hx hr hc)
  have b' : d'.busId = id := h'.keyed _ (amGet_mem hg)
  have b : d.busId = id := h.keyed _ (amGet_mem hd)
  rcases step_onServer env p s h e d' (used_onServer hg) with hm | rfl
  · rw [hg, onServer_unique h.distinct hm (used_onServer hd) (b'.trans b.symm)]
  · exact absurd (b.trans b'.symm) (hf d (used_onServer hd))

/-- The world after a step that is none of the client's business. -/
theorem world_elsewhere {σ τ α} (who : HandlerId → Bool) (others : Env σ) (mine : Env τ)
    (act : α → τ → τ) (p : Profile) (c : Nat) (id : Bytes) (s : Sys (σ × τ)) (h : Inv s.shared s.conns)
    (ho : ∀ y ∈ onServer s.shared, y.busId ≠ id → ∀ k ∈ handlersOf y, who k = false)
    (x : Conn) (hx : s.conns c = some x) (hr : x.status = .running) (hc : x.current = some id)
    (e : HostedEvent σ α) (he : concerning who c act e = none) :
    ownWorld who (s.step (beside who others mine) p (e.event act)).shared.world
      = ownWorld who s.shared.world := by
  cases e with
  | app a => simp [concerning] at he
  | server e =>
    cases e with
    | connect c' i =>
      simp only [HostedEvent.event, Sys.step]
      split <;> rfl
    | iterate c' w =>
      have hne : c' ≠ c := by
        rintro rfl
        simp [concerning] at he
      simp only [HostedEvent.event, Sys.step]
      split
      · rename_i y hy
        split
        · rename_i hyr
          refine iterate_other who others mine p s.shared y w (fun d hd => ?_)
          cases hyc : y.current with
          | none => rw [hyc] at hd; simp at hd
          | some id' =>
            rw [hyc] at hd
            have hg : amGet id' s.shared.used = some d := hd
            refine ho d (used_onServer hg) ?_
            rw [show d.busId = id' from h.keyed _ (amGet_mem hg)]
            rintro rfl
            exact h.own c' c y x id' hne hy hx hyr hr hyc hc
        · rfl
      · rfl
    | cancel c' =>
      simp only [HostedEvent.event, Sys.step]
      split
      · split <;> rfl
      · rfl
    | addDevice d => rfl
    | removeDevice b =>
      simp only [HostedEvent.event, Sys.step]
      rcases removeDevice_cases s.shared b with ⟨d, l1, l2, _, _, _, h⟩ | ⟨_, _, h⟩ | ⟨_, _, h⟩ <;>
        rw [h]
    | user f crash =>
      cases crash with
      | none => rfl
      | some k =>
        cases hk : who k with
        | true => simp [concerning, hk] at he
        | false =>
          cases k <;>
            simp only [HostedEvent.event, Sys.step, World.used, World.poison, ownWorld, World.mk.injEq, true_and, and_true] <;>
            funext j
          all_goals
            rename_i h'
            by_cases e : j = h'
            · subst e; simp [hk]
            · simp [e]

/-- One event, on the server and (if it concerns the client) alone. -/
theorem side_step {σ τ α} (who : HandlerId → Bool) (others : Env σ) (mine : Env τ) (act : α → τ → τ)
    (p : Profile) (c : Nat) (id : Bytes) (d : Device) (hd : ∀ k ∈ handlersOf d, who k = true)
    (s : Sys (σ × τ)) (t : Sys τ) (h : Side who p c id d s t) (e : HostedEvent σ α)
    (hf : ∀ y, e.event act = .addDevice y → ∀ x ∈ onServer s.shared, x.busId ≠ y.busId)
    (ha : ∀ y, e.event act = .addDevice y → ∀ k ∈ handlersOf y, who k = false) :
    Side who p c id d (s.step (beside who others mine) p (e.event act))
      (t.run mine p (concerning who c act e).toList) := by
  obtain ⟨x, hx, hgo⟩ := h.going
  have hxt : t.conns c = some x := by rw [← h.conn]; exact hx
  have hinv := Inv.step (beside who others mine) p s h.inv (e.event act)
    (by split <;> first | exact hf _ ‹_› | trivial)
  have hoth : ∀ y ∈ onServer (s.step (beside who others mine) p (e.event act)).shared, y.busId ≠ id →
      ∀ k ∈ handlersOf y, who k = false := by
    intro y hy hne
    rcases step_onServer _ p s h.inv (e.event act) y hy with hm | he
    · exact h.others y hm hne
    · exact ha y he
  by_cases hr : x.status = .running
  case neg =>
    have h1 := step_ended (beside who others mine) p s (e.event act) c x hx hr
    have h2 : ∀ (es : List (Event τ)) (t : Sys τ), t.conns c = some x → (t.run mine p es).conns c = some x := by
      intro es
      induction es with
      | nil => intro t ht; exact ht
      | cons e es ih => intro t ht; exact ih _ (step_ended mine p t e c x ht hr)
    exact ⟨hinv, hoth, h1.trans (h2 _ t hxt).symm, x, h1, fun hr' => absurd hr' hr⟩
  obtain ⟨hcur, hu, hg, htu, hw⟩ := hgo hr
  cases hcon : concerning who c act e with
  | none =>
    have hi : ∀ w, e.event act ≠ .iterate c w := by
      intro w he
      cases e with
      | app a => simp [HostedEvent.event] at he
      | server e => cases e <;> simp_all [HostedEvent.event, concerning]
    have hk : e.event act ≠ .cancel c := by
      intro he
      cases e with
      | app a => simp [HostedEvent.event] at he
      | server e => cases e <;> simp_all [HostedEvent.event, concerning]
    have h1 := step_elsewhere (beside who others mine) p s (e.event act) c x hx hi hk
    refine ⟨hinv, hoth, h1.trans hxt.symm, x, h1, fun _ => ⟨hcur, hu, ?_, htu, ?_⟩⟩
    · exact kept _ p s h.inv _ (by split <;> first | exact hf _ ‹_› | trivial) c x id d h1 hr hcur hg
    · rw [world_elsewhere who others mine act p c id s h.inv h.others x hx hr hcur e hcon]; exact hw
  | some e' =>
    cases e with
    | app a =>
      simp only [concerning, Option.some.injEq] at hcon
      subst hcon
      refine ⟨hinv, hoth, h.conn, x, hx, fun _ => ⟨hcur, hu, hg, htu, ?_⟩⟩
      show ownWorld who { s.shared.world with user := (s.shared.world.user.1, act a s.shared.world.user.2) }
        = { t.shared.world with user := act a t.shared.world.user }
      rw [← hw]; rfl
    | server e =>
      cases e with
      | iterate c' w =>
        have hcc : c' = c := by
          cases Nat.decEq c' c with
          | isTrue h => exact h
          | isFalse hne => simp [concerning, hne] at hcon
        subst hcc
        simp only [concerning, if_true, Option.some.injEq] at hcon
        subst hcon
        have e1 : s.step (beside who others mine) p (.iterate c' w)
            = { shared := (x.iterate (beside who others mine) p s.shared w).1
                conns := setConn s.conns c' (x.iterate (beside who others mine) p s.shared w).2 } := by
          simp only [Sys.step, hx, if_pos hr]
        have e2 : t.step mine p (.iterate c' w)
            = { shared := (x.iterate mine p t.shared w).1
                conns := setConn t.conns c' (x.iterate mine p t.shared w).2 } := by
          simp only [Sys.step, hxt, if_pos hr]
        obtain ⟨i1, i2⟩ := iterate_mine who others mine p s.shared t.shared x w id d hw hcur hg htu hd hu
        refine ⟨hinv, hoth, ?_, ?_⟩
        · show (s.step (beside who others mine) p (.iterate c' w)).conns c' = (t.step mine p (.iterate c' w)).conns c'
          rw [e1, e2]
          simp only [setConn, if_true, i1]
        · show ∃ y, (s.step (beside who others mine) p (.iterate c' w)).conns c' = some y ∧ (y.status = .running →
            y.current = some id ∧ OnlyUrbs p y.input ∧
            amGet id (s.step (beside who others mine) p (.iterate c' w)).shared.used = some d ∧
            (t.step mine p (.iterate c' w)).shared.used = [(id, d)] ∧
            ownWorld who (s.step (beside who others mine) p (.iterate c' w)).shared.world
              = (t.step mine p (.iterate c' w)).shared.world)
          rw [e1, e2]
          refine ⟨(x.iterate mine p t.shared w).2, by simp only [setConn, if_true, i1], fun hr' => ?_⟩
          rcases i2 with i2 | ⟨j1, j2, j3, j4, j5⟩
          · exact absurd hr' i2
          · exact ⟨j1, j2, by rw [j3]; exact hg, by rw [j4]; exact htu, j5⟩
      | cancel c' =>
        have hcc : c' = c := by
          cases Nat.decEq c' c with
          | isTrue h => exact h
          | isFalse hne => simp [concerning, hne] at hcon
        subst hcc
        simp only [concerning, if_true, Option.some.injEq] at hcon
        subst hcon
        have e1 : (s.step (beside who others mine) p (.cancel c')).conns c' = some { x with status := .cancelled } := by
          simp only [Sys.step, hx, if_pos hr, setConn, if_true]
        have e2 : (t.step mine p (.cancel c')).conns c' = some { x with status := .cancelled } := by
          simp only [Sys.step, hxt, if_pos hr, setConn, if_true]
        exact ⟨hinv, hoth, e1.trans e2.symm, _, e1, fun hr' => by simp at hr'⟩
      | connect _ _ => simp [concerning] at hcon
      | addDevice _ => simp [concerning] at hcon
      | removeDevice _ => simp [concerning] at hcon
      | user f crash =>
        cases crash with
        | none => simp [concerning] at hcon
        | some k =>
          cases hk : who k with
          | false => simp [concerning, hk] at hcon
          | true =>
            simp only [concerning, hk, if_true, Option.some.injEq] at hcon
            subst hcon
            refine ⟨hinv, hoth, h.conn, x, hx, fun _ => ⟨hcur, hu, hg, htu, ?_⟩⟩
            show ownWorld who (s.shared.world.used (fun u => (f u.1, u.2)) (some k)) = t.shared.world.used _root_.id (some k)
            rw [← hw]
            cases k <;>
              simp only [World.used, World.poison, ownWorld, World.mk.injEq, true_and, and_true, id_eq] <;>
              funext j
            all_goals
              rename_i h'
              by_cases e : j = h'
              · subst e; simp [hk]
              · simp [e]

theorem urbs_cons {p : Profile} {i : Stream} {cmd : Cmd} {rest : Stream}
    (hc : readCommand p i = .ok (cmd, rest))
    (hu : (∃ h a b c d e s t i, cmd = .submit h a b c d e s t i) ∨ ∃ h n, cmd = .unlink h n)
    (hr : OnlyUrbs p rest) : OnlyUrbs p i := by
  intro n cmds r h cmd' hm
  cases n with
  | zero => simp only [readMany, Outcome.ok.injEq, Prod.mk.injEq] at h; rw [← h.1] at hm; simp at hm
  | succ n =>
    simp only [readMany, hc] at h
    change (do let (cs, s) ← readMany p n rest; pure (cmd :: cs, s) : Outcome _) = _ at h
    cases hq : readMany p n rest with
    | ok q =>
      rw [hq] at h
      change Outcome.ok (cmd :: q.1, q.2) = _ at h
      simp only [Outcome.ok.injEq, Prod.mk.injEq] at h
      rw [← h.1] at hm
      rcases List.mem_cons.mp hm with rfl | hm
      · exact hu
      · exact hr n q.1 q.2 hq cmd' hm
    | err e => rw [hq] at h; change Outcome.err e = _ at h; simp at h
    | panic => rw [hq] at h; change Outcome.panic = _ at h; simp at h
    | diverge => rw [hq] at h; change Outcome.diverge = _ at h; simp at h

theorem urbs_end {p : Profile} {i : Stream} {e : ErrKind} (hc : readCommand p i = .err e) :
    OnlyUrbs p i := by
  intro n cmds r h cmd' hm
  cases n with
  | zero => simp only [readMany, Outcome.ok.injEq, Prod.mk.injEq] at h; rw [← h.1] at hm; simp at hm
  | succ n =>
    simp only [readMany, hc] at h
    change Outcome.err e = _ at h
    simp at h

end Usbip
