import Verif.Spec.Nusb
import Verif.Props.Trace
/-!
# A device shared through nusb, over whole histories: C80
-/

namespace Usbip
open Spec Samples

/-- The same on the recorded host. -/
abbrev nusbShared {σ τ} (host : NusbHost τ) (ifs devs : Nat → Bool) (env : Env σ) : Env (σ × (τ × List NusbCall)) :=
  sharingNusb (fun h => watchNusb (.iface h) (host.iface h)) (fun h => watchNusb (.dev h) (host.dev h)) ifs devs env

/-- The device's own activity, beside the record of calls. -/
def actBeside {α τ β} (act : α → τ → τ) (a : α) (t : τ × List β) : τ × List β := (act a t.1, t.2)

theorem controlOf_eq (s : SetupPacket) : controlOf s = nusbControl s := by
  cases h : nusbControl s with
  | none =>
    have := (nusbControl_none s).mp h
    unfold controlOf typeOf recipientOf
    rcases this with h | h
    · rw [h]; rfl
    · rw [show [NusbRecipient.device, .interface, .endpoint, .other][s.requestType.toNat % 32]? = none from
        List.getElem?_eq_none h]
      split <;> simp_all
  | some c =>
    have hn : ¬ (s.requestType.toNat / 32 % 4 = 3 ∨ 3 < s.requestType.toNat % 32) := by
      rw [← nusbControl_none, h]; simp
    have ht : ∃ t, typeOf s.requestType = some t ∧ s.requestType.toNat / 32 % 4 = typeBits t := by
      unfold typeOf
      have : s.requestType.toNat / 32 % 4 = 0 ∨ s.requestType.toNat / 32 % 4 = 1 ∨ s.requestType.toNat / 32 % 4 = 2 := by omega
      rcases this with e | e | e <;> rw [e]
      · exact ⟨.standard, rfl, rfl⟩
      · exact ⟨.cls, rfl, rfl⟩
      · exact ⟨.vendor, rfl, rfl⟩
    have hr : ∃ r, recipientOf s.requestType = some r ∧ s.requestType.toNat % 32 = recipientBits r := by
      unfold recipientOf
      have : s.requestType.toNat % 32 = 0 ∨ s.requestType.toNat % 32 = 1 ∨ s.requestType.toNat % 32 = 2 ∨
        s.requestType.toNat % 32 = 3 := by omega
      rcases this with e | e | e | e <;> rw [e]
      · exact ⟨.device, rfl, rfl⟩
      · exact ⟨.interface, rfl, rfl⟩
      · exact ⟨.endpoint, rfl, rfl⟩
      · exact ⟨.other, rfl, rfl⟩
    obtain ⟨t, ht1, ht2⟩ := ht
    obtain ⟨r, hr1, hr2⟩ := hr
    rw [← h, nusbControl_some s t r ht2 hr2]
    unfold controlOf
    rw [ht1, hr1]

/-- A host handler's answer, and its effect on the device and the record. -/
theorem nusb_answer {σ τ} (host : NusbHost τ) (hl : host.Honest) (ifs devs : Nat → Bool) (env : Env σ)
    (u : σ × (τ × List NusbCall)) (c : HCall) :
    match nusbDoes ifs devs c with
    | .call l => (c.answer (nusbShared host ifs devs env) u).1 = .ok (readBytes (l.answer host u.2.1)) ∧
        (c.answer (nusbShared host ifs devs env) u).2.2 = (l.after host u.2.1, u.2.2 ++ [l])
    | .crash h => h = c.target ∧ (c.answer (nusbShared host ifs devs env) u).1 = .panic ∧
        (c.answer (nusbShared host ifs devs env) u).2.2 = u.2
    | .nothing => (c.answer (nusbShared host ifs devs env) u).2.2 = u.2 ∧
        (nusbOwn ifs devs c.target = true → (c.answer (nusbShared host ifs devs env) u).1 ≠ .panic) := by
  obtain ⟨u1, t, log⟩ := u
  cases c with
  | iface h i e len s data =>
    simp only [nusbDoes, HCall.answer, nusbShared, sharingNusb, HCall.target, nusbOwn]
    by_cases hh : ifs h = true
    · simp only [hh, if_true]
      rw [controlOf_eq]
      unfold nusbIface
      cases hc : nusbControl s with
      | none => exact ⟨rfl, rfl, rfl⟩
      | some c =>
        have hs := sliceResult_ok len.toNat ((host.iface h).controlIn c len.toNat t).1
          (fun l f hlf => hl (.iface h) c len.toNat t l f hlf)
        rcases attr_cases e.attributes with ⟨hn, ha⟩ | ⟨hn, ha⟩ | ⟨hn, ha⟩ | ⟨hn, ha⟩ | hn
        · rw [hn, ha]
          simp only [EndpointAttributes.toU8, if_true, transfer]
          by_cases hi : 128 ≤ e.address.toNat
          · simp only [(direction_in e).mpr hi, hi, if_true, watchNusb]
            exact ⟨by rw [hs]; rfl, rfl⟩
          · simp only [(direction_out e).mpr (by omega), hi, if_false, watchNusb]
            exact ⟨rfl, rfl⟩
        · rw [hn, ha]; exact ⟨rfl, by simp [EndpointAttributes.toU8]⟩
        · rw [hn, ha]; exact ⟨rfl, rfl, rfl⟩
        · rw [hn, ha]; exact ⟨rfl, rfl, rfl⟩
        · have h0 : ∀ k : UInt8, k.toNat ≤ 3 → e.attributes ≠ k := by
            intro k hk h; rw [h] at hn; omega
          simp only [if_neg (h0 _ (by decide : EndpointAttributes.control.toU8.toNat ≤ 3)),
            if_neg (h0 _ (by decide : EndpointAttributes.interrupt.toU8.toNat ≤ 3)),
            if_neg (h0 _ (by decide : EndpointAttributes.bulk.toU8.toNat ≤ 3))]
          obtain ⟨k, hk⟩ : ∃ k, e.attributes.toNat = k + 4 := ⟨e.attributes.toNat - 4, by omega⟩
          rw [hk]
          refine ⟨?_, ?_⟩ <;> simp
    · simp only [hh]
      exact ⟨rfl, by simp⟩
  | dev h len s data =>
    simp only [nusbDoes, HCall.answer, nusbShared, sharingNusb, HCall.target, nusbOwn]
    by_cases hh : devs h = true
    · simp only [hh, if_true]
      rw [controlOf_eq]
      unfold nusbDev
      cases hc : nusbControl s with
      | none => exact ⟨rfl, rfl, rfl⟩
      | some c =>
        have hs := sliceResult_ok len.toNat ((host.dev h).controlIn c len.toNat t).1
          (fun l f hlf => hl (.dev h) c len.toNat t l f hlf)
        simp only [transfer]
        by_cases hi : 128 ≤ s.requestType.toNat
        · have : ¬ s.requestType &&& 0x80 = 0 := by rw [and80_zero]; omega
          simp only [this, hi, if_true, if_false, watchNusb]
          exact ⟨by rw [hs]; rfl, rfl⟩
        · have : s.requestType &&& 0x80 = 0 := by rw [and80_zero]; omega
          simp only [this, hi, if_true, if_false, watchNusb]
          exact ⟨rfl, rfl⟩
    · simp only [hh]
      exact ⟨rfl, by simp⟩

/-- One event, as far as the shared device is concerned. -/
theorem step_nusb {σ τ α} (host : NusbHost τ) (hl : host.Honest) (ifs devs : Nat → Bool) (env : Env σ)
    (act : α → τ → τ) (p : Profile) (s : Sys (σ × (τ × List NusbCall))) (e : HostedEvent σ α) :
    let env' := nusbShared host ifs devs env
    let u := s.shared.world.user.2
    let s' := s.step env' p (e.event (actBeside act))
    let u' := s'.shared.world.user.2
    (∀ k, nusbOwn ifs devs k = true → (crashed s'.shared.world k = true ↔ crashed s.shared.world k = true ∨
      (∃ f, e = .server (.user f (some k))) ∨
      ∃ o, nusbWitness env' (actBeside act) ifs devs p s e = some (.crash k, o))) ∧
    match nusbWitness env' (actBeside act) ifs devs p s e with
    | none => u' = u
    | some (.app a, o) => o = none ∧ u' = (act a u.1, u.2)
    | some (.lib l, o) => ∃ r, o = some r ∧ u' = (l.after host u.1, u.2 ++ [l]) ∧
        Carries r (.ok (readBytes (l.answer host u.1))) ∧ ∀ k, NusbOp.of (.lib l : NusbOp α) = some k →
          nusbOwn ifs devs k = true ∧ crashed s.shared.world k = false
    | some (.crash k, o) => ∃ r, o = some r ∧ u' = u ∧ Carries r .panic ∧ nusbOwn ifs devs k = true ∧
        crashed s.shared.world k = false := by
  intro env' u s' u'
  have hst := step_traced env' p s (e.event (actBeside act))
  have hs' : s.step env' p (e.event (actBeside act)) = s' := rfl
  rw [hs'] at hst
  cases e with
  | app a =>
    simp only [HostedEvent.event, witness] at hst
    simp only [nusbWitness, Option.some.injEq, Prod.mk.injEq, reduceCtorEq, false_and, exists_false, or_false]
    obtain ⟨_, hu, crash, hc, hcr⟩ := hst
    refine ⟨fun k _ => ?_, trivial, ?_⟩
    · rw [hcr k]
      simp only [Event.user.injEq] at hc
      rw [← hc.2]; simp
    · show s'.shared.world.user.2 = _
      rw [hu]; rfl
  | server e =>
    have other : (∀ f o, witness env' p s (HostedEvent.event (actBeside act) (.server e)) ≠ some (.user f, o)) →
        ∀ k, ¬ ∃ f, (HostedEvent.server e : HostedEvent σ α) = .server (.user f (some k)) := by
      rintro hn k ⟨f, hf⟩
      cases hf
      exact hn _ none rfl
    cases hw : witness env' p s (HostedEvent.event (actBeside act) (.server e)) with
    | none =>
      rw [hw] at hst other
      dsimp only at hst
      simp only [nusbWitness, hw]
      refine ⟨fun k _ => by rw [hst]; simp only [other (by simp) k, reduceCtorEq, exists_false, or_false], ?_⟩
      show s'.shared.world.user.2 = _
      rw [hst]
    | some q =>
      obtain ⟨a, o⟩ := q
      rw [hw] at hst
      cases a with
      | user f =>
        obtain ⟨_, hst, crash, he, hcr⟩ := hst
        simp only [nusbWitness, hw]
        refine ⟨fun k _ => ?_, ?_⟩
        · rw [hcr k]
          cases e <;> simp only [HostedEvent.event, reduceCtorEq, Event.user.injEq] at he
          simp only [← he.2, HostedEvent.server.injEq, Event.user.injEq, exists_eq_left', reduceCtorEq, exists_false, or_false]
        show s'.shared.world.user.2 = s.shared.world.user.2
        rw [hst]
        cases e with
        | user g =>
          simp only [HostedEvent.event, witness, Option.some.injEq, Prod.mk.injEq, Act.user.injEq] at hw
          rw [← hw.1]
        | iterate c w =>
          exfalso
          simp only [HostedEvent.event, witness] at hw
          split at hw
          · split at hw <;> simp at hw
          · simp at hw
        | connect c i => simp [HostedEvent.event, witness] at hw
        | cancel c => simp [HostedEvent.event, witness] at hw
        | addDevice d => simp [HostedEvent.event, witness] at hw
        | removeDevice b => simp [HostedEvent.event, witness] at hw
      | call c =>
        obtain ⟨r, rfl, hp, hu, hcar, hcr⟩ := hst
        have other := other (by rw [hw]; simp)
        simp only [other, false_or]
        have hans := nusb_answer host hl ifs devs env s.shared.world.user c
        have hpo : crashed s.shared.world c.target = false := by cases c <;> exact hp
        have hown : ∀ {d : NusbDoes}, nusbDoes ifs devs c = d →
            (∀ l, d = .call l → NusbOp.of (.lib l : NusbOp α) = some c.target ∧ nusbOwn ifs devs c.target = true) ∧
            (∀ k, d = .crash k → nusbOwn ifs devs c.target = true) := by
          rintro d rfl
          cases c with
          | iface h i ep len st da =>
            simp only [nusbDoes]
            by_cases hh : ifs h = true
            · simp only [hh, if_true]
              refine ⟨fun l hl => ⟨?_, hh⟩, fun k _ => hh⟩
              split at hl <;> simp only [transfer, reduceCtorEq, NusbDoes.call.injEq] at hl
              subst hl
              split <;> rfl
            · simp [hh]
          | dev h len st da =>
            simp only [nusbDoes]
            by_cases hh : devs h = true
            · simp only [hh, if_true]
              refine ⟨fun l hl => ⟨?_, hh⟩, fun k _ => hh⟩
              split at hl <;> simp only [transfer, reduceCtorEq, NusbDoes.call.injEq] at hl
              subst hl
              split <;> rfl
            · simp [hh]
        cases hd : nusbDoes ifs devs c with
        | call l =>
          rw [hd] at hans
          obtain ⟨h1, h2⟩ := hans
          obtain ⟨h3, h4⟩ := (hown hd).1 l rfl
          simp only [nusbWitness, hw, hd, Option.some.injEq, Prod.mk.injEq, reduceCtorEq, false_and, exists_false, or_false]
          refine ⟨fun k _ => ?_, r, rfl, ?_, ?_, ?_⟩
          · rw [hcr k, show (c.answer env' s.shared.world.user).1 = _ from h1]; simp
          · show s'.shared.world.user.2 = _
            rw [hu]; exact h2
          · rw [← show (c.answer env' s.shared.world.user).1 = _ from h1]; exact hcar
          · intro k hk
            rw [h3] at hk
            simp only [Option.some.injEq] at hk
            subst hk
            exact ⟨h4, hpo⟩
        | crash k =>
          rw [hd] at hans
          obtain ⟨rfl, h1, h2⟩ := hans
          simp only [nusbWitness, hw, hd]
          refine ⟨fun k _ => ?_, r, rfl, ?_, ?_, (hown hd).2 _ rfl, hpo⟩
          · rw [hcr k, show (c.answer env' s.shared.world.user).1 = _ from h1]
            constructor
            · rintro (h | ⟨rfl, _⟩)
              · exact .inl h
              · exact .inr ⟨_, rfl⟩
            · rintro (h | ⟨o, ho⟩)
              · exact .inl h
              · simp only [Option.some.injEq, Prod.mk.injEq, NusbOp.crash.injEq] at ho
                exact .inr ⟨ho.1.symm, rfl⟩
          · show s'.shared.world.user.2 = _
            rw [hu]; exact h2
          · rw [← show (c.answer env' s.shared.world.user).1 = _ from h1]; exact hcar
        | nothing =>
          rw [hd] at hans
          simp only [nusbWitness, hw, hd]
          refine ⟨fun k hk => ?_, ?_⟩
          · rw [hcr k]
            simp only [reduceCtorEq, exists_false, or_false]
            constructor
            · rintro (h | ⟨rfl, h⟩)
              · exact h
              · exact absurd h (hans.2 hk)
            · exact Or.inl
          · show s'.shared.world.user.2 = _
            rw [hu]; exact hans.1

/-- C80: over any history of a server that shares a device through nusb beside arbitrary others, nusb is
called exactly once for each control request to one of the device's handlers that has not crashed,
in the order of execution, with the request and data of the submit, and never otherwise; every client
is sent what nusb read for its submit.  A handler of the device crashes exactly if it is asked for a bulk
or interrupt transfer, or for a request of a reserved type or recipient (the client that asked gets no
reply), or the application panics with it in its hands. -/
theorem C80_shared {σ τ α} (host : NusbHost τ) (hl : host.Honest) (ifs devs : Nat → Bool) (env : Env σ)
    (act : α → τ → τ) (p : Profile) (es : List (HostedEvent σ α)) : ∀ s : Sys (σ × (τ × List NusbCall)),
    let env' := nusbShared host ifs devs env
    let obs := nusbTrace env' (actBeside act) ifs devs p s es
    let ops := obs.map Prod.fst
    let end_ := (s.run env' p (es.map (HostedEvent.event (actBeside act)))).shared.world
    end_.user.2.2 = s.shared.world.user.2.2 ++ nusbCalls ops ∧
    end_.user.2.1 = (nusbRun host act s.shared.world.user.2.1 ops).2 ∧
    Pointwise Carries (obs.filterMap Prod.snd) (nusbRun host act s.shared.world.user.2.1 ops).1 ∧
    (∀ k, nusbOwn ifs devs k = true →
      (crashed end_ k = true ↔ crashed s.shared.world k = true ∨ (∃ f, .server (.user f (some k)) ∈ es) ∨
        ∃ o, (.crash k, o) ∈ obs)) ∧
    (∀ k, nusbOwn ifs devs k = true → crashed s.shared.world k = true → ∀ o ∈ ops, o.of ≠ some k) := by
  induction es with
  | nil => intro s; exact ⟨(List.append_nil _).symm, rfl, .nil, by simp [nusbTrace, Sys.run], by simp [nusbTrace]⟩
  | cons e es ih =>
    intro s
    intro env' obs ops end_
    obtain ⟨hcr, hst⟩ := step_nusb host hl ifs devs env act p s e
    obtain ⟨i1, i2, i3, i4, i5⟩ := ih (s.step env' p (e.event (actBeside act)))
    have hend : end_ = ((s.step env' p (e.event (actBeside act))).run env' p
        (es.map (HostedEvent.event (actBeside act)))).shared.world := rfl
    have hobs : obs = (nusbWitness env' (actBeside act) ifs devs p s e).toList ++
        nusbTrace env' (actBeside act) ifs devs p (s.step env' p (e.event (actBeside act))) es := rfl
    have hops : ops = obs.map Prod.fst := rfl
    have hcrash : ∀ k, nusbOwn ifs devs k = true → (crashed end_ k = true ↔ crashed s.shared.world k = true ∨
        (∃ f, .server (.user f (some k)) ∈ e :: es) ∨ ∃ o, (.crash k, o) ∈ obs) := by
      intro k hk
      rw [hend, hobs, i4 k hk, hcr k hk, or_assoc]
      apply or_congr Iff.rfl
      have split : (∃ f, .server (.user f (some k)) ∈ e :: es) ↔
          (∃ f, e = .server (.user f (some k))) ∨ ∃ f, .server (.user f (some k)) ∈ es := by
        simp only [List.mem_cons, exists_or, eq_comm]
      rw [split, or_assoc, or_assoc]
      apply or_congr Iff.rfl
      rw [or_left_comm]
      apply or_congr Iff.rfl
      rw [show nusbShared host ifs devs env = env' from rfl]
      cases nusbWitness env' (actBeside act) ifs devs p s e with
      | none => simp
      | some q => 
        simp only [Option.some.injEq, Option.toList_some, List.singleton_append, List.mem_cons]
        constructor
        · rintro (⟨o, rfl⟩ | ⟨o, h⟩)
          · exact ⟨o, .inl rfl⟩
          · exact ⟨o, .inr h⟩
        · rintro ⟨o, rfl | h⟩
          · exact .inl ⟨o, rfl⟩
          · exact .inr ⟨o, h⟩
    have hstop : ∀ k, nusbOwn ifs devs k = true → crashed s.shared.world k = true → ∀ o ∈ ops, o.of ≠ some k := by
      intro k hk hc o ho
      rw [hops, hobs, List.map_append, List.mem_append] at ho
      rcases ho with ho | ho
      · rw [show nusbShared host ifs devs env = env' from rfl] at hst
        cases hw : nusbWitness env' (actBeside act) ifs devs p s e with
        | none => simp [hw] at ho
        | some q =>
          rw [hw] at ho hst
          obtain ⟨a, r⟩ := q
          simp only [Option.toList_some, List.map_cons, List.map_nil, List.mem_singleton] at ho
          subst ho
          cases o with
          | app a => simp [NusbOp.of]
          | lib l =>
            obtain ⟨_, _, _, _, h⟩ := hst
            intro he
            have := (h k he).2
            rw [hc] at this; simp at this
          | crash k' =>
            obtain ⟨_, _, _, _, _, h⟩ := hst
            intro he
            simp only [NusbOp.of, Option.some.injEq] at he
            subst he
            rw [hc] at h; simp at h
      · exact i5 k hk ((hcr k hk).2 (.inl hc)) o ho
    have hcalls : ∀ (o : NusbOp α) os, nusbCalls (o :: os) = nusbCalls [o] ++ nusbCalls os := by
      intro o os; cases o <;> rfl
    rw [show nusbShared host ifs devs env = env' from rfl] at hst i1 i2 i3
    refine ⟨?_, ?_, ?_, hcrash, hstop⟩
    all_goals
      simp only [hops, hobs, hend]
    · rw [i1]
      cases hw : nusbWitness env' (actBeside act) ifs devs p s e with
      | none => rw [hw] at hst; simp [hst]
      | some q =>
        rw [hw] at hst
        obtain ⟨a, r⟩ := q
        rw [Option.toList_some, List.singleton_append, List.map_cons, hcalls, ← List.append_assoc]
        congr 1
        cases a with
        | app a => rw [hst.2]; exact (List.append_nil _).symm
        | lib l => obtain ⟨_, _, h, _⟩ := hst; rw [h]; rfl
        | crash k => obtain ⟨_, _, h, _⟩ := hst; rw [h]; exact (List.append_nil _).symm
    · rw [i2]
      cases hw : nusbWitness env' (actBeside act) ifs devs p s e with
      | none => rw [hw] at hst; simp [hst]
      | some q =>
        rw [hw] at hst
        obtain ⟨a, r⟩ := q
        cases a with
        | app a => rw [hst.2]; rfl
        | lib l => obtain ⟨_, _, h, _⟩ := hst; rw [h]; rfl
        | crash k => obtain ⟨_, _, h, _⟩ := hst; rw [h]; rfl
    · cases hw : nusbWitness env' (actBeside act) ifs devs p s e with
      | none => rw [hw] at hst; rw [hst] at i3; exact i3
      | some q =>
        rw [hw] at hst
        obtain ⟨a, r⟩ := q
        cases a with
        | app a => obtain ⟨rfl, h⟩ := hst; rw [h] at i3; exact i3
        | lib l => obtain ⟨_, rfl, h, hc, _⟩ := hst; rw [h] at i3; exact .cons hc i3
        | crash k => obtain ⟨_, rfl, h, hc, _⟩ := hst; rw [h] at i3; exact .cons hc i3

/-! ## A concrete case -/

/-- A host device that answers control reads with its counter, and counts what is written to it. -/
def sampleNusb : NusbHost Nat where
  iface _ := { controlIn := fun _ n t => (some (min n 1, fun _ => UInt8.ofNat t), t + 1), controlOut := fun _ d t => t + d.length }
  dev _ := { controlIn := fun _ n t => (some (min n 2, fun _ => 7), t), controlOut := fun _ _ t => t }

example : sampleNusb.Honest := by
  intro h c n t l f e
  cases h <;> simp only [NusbHost.at, sampleNusb, Option.some.injEq, Prod.mk.injEq] at e <;> omega

/-- A client reads a report, writes one of two bytes, reads again, asks the device, and polls endpoint 1. -/
def nusbHistory : List (HostedEvent Nat Nat) :=
  [.server (.connect 0 ⟨wireCmd (.reqImport 0 busA)
      ++ wireCmd (.submit ⟨1, 1, 65538, 1, 0⟩ 0 8 0 0 0 [0xA1, 1, 0, 1, 0, 0, 8, 0] [] [])
      ++ wireCmd (.submit ⟨1, 2, 65538, 0, 0⟩ 0 2 0 0 0 [0x21, 9, 0, 2, 0, 0, 2, 0] [5, 6] [])
      ++ wireCmd (.submit ⟨1, 3, 65538, 1, 0⟩ 0 8 0 0 0 [0xA1, 1, 0, 1, 0, 0, 8, 0] [] [])
      ++ wireCmd (.submit ⟨1, 4, 65538, 1, 0⟩ 0 4 0 0 0 [0xC0, 3, 1, 0, 2, 0, 4, 0] [] [])
      ++ wireCmd (.submit ⟨1, 5, 65538, 1, 1⟩ 0 4 0 0 0 [0, 0, 0, 0, 0, 0, 0, 0] [] [])
      ++ wireCmd (.submit ⟨1, 6, 65538, 1, 0⟩ 0 8 0 0 0 [0xA1, 1, 0, 1, 0, 0, 8, 0] [] []), .unexpectedEof⟩),
   .server (.iterate 0 .full), .server (.iterate 0 .full), .app 100, .server (.iterate 0 .full),
   .server (.iterate 0 .full), .server (.iterate 0 .full), .server (.iterate 0 .full), .server (.iterate 0 .full)]

/-- Test: every control request reaches nusb once; the poll crashes interface handler 0 and is not
answered, nor is what follows; the device's own activity shows in the second report. -/
example :
    let env' := nusbShared sampleNusb (fun h => h = 0 ∨ h = 1) (fun h => h = 0) env
    let s : Sys (Nat × (Nat × List NusbCall)) :=
      ⟨⟨[{ devA with deviceHandler := some 0 }], [], ⟨(0, (0, [])), fun _ => false, fun _ => false⟩⟩, fun _ => none⟩
    let t := nusbTrace env' (actBeside (· + ·)) (fun h => h = 0 ∨ h = 1) (fun h => h = 0) release s nusbHistory
    t.map Prod.fst =
      [.lib (.controlIn (.iface 0) ⟨.cls, .interface, 1, 0x0100, 0⟩ 8), .app 100,
       .lib (.controlOut (.iface 0) ⟨.cls, .interface, 9, 0x0200, 0⟩ [5, 6]),
       .lib (.controlIn (.iface 0) ⟨.cls, .interface, 1, 0x0100, 0⟩ 8),
       .lib (.controlIn (.dev 0) ⟨.vendor, .device, 3, 1, 2⟩ 4), .crash (.iface 0)] ∧
    (t.filterMap Prod.snd).map Sent.data = [[0], [], [103], [7, 7], []] ∧
    (s.run env' release (nusbHistory.map (HostedEvent.event (actBeside (· + ·))))).shared.world.user.2.1 = 104 := by
  decide +kernel

end Usbip
