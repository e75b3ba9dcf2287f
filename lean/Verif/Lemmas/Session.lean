import Verif.Spec.Session
import Verif.Lemmas.Isolation
/-! Helper lemmas: which device a client is talking to. -/

namespace Usbip
open Spec

theorem submit_answered {σ} (env : Env σ) (p : Profile) (s : Shared σ) (d : Device) (h : Header)
    (len : UInt32) (setup data : Bytes) (r : Resp) (hr : (s.submit env p d h len setup data).1 = .ok r) :
    AnsweredBy env p d h len setup data r := by
  unfold AnsweredBy
  dsimp only
  have hj : ∀ j : Job, j = ⟨d, h, len, setup, data⟩ →
      (s.submit env p j.device j.header j.len j.setup j.data).1 = .ok r := by rintro _ rfl; exact hr
  cases hf : endpointAt d (Job.address ⟨d, h, len, setup, data⟩) with
  | none =>
    have := hj _ rfl
    rw [submit_missing env p s ⟨d, h, len, setup, data⟩ hf] at this
    exact (Outcome.ok.inj this).symm
  | some q =>
    obtain ⟨ep, o⟩ := q
    have := hj _ rfl
    rw [submit_eq env p s ⟨d, h, len, setup, data⟩ ep o hf] at this
    obtain ⟨h1, _⟩ := handleUrb_said env p d ep o len (setupAt setup) data s.world
    dsimp only at this ⊢
    refine ⟨s.world, ?_⟩
    cases hs : (said env p d ep o len (setupAt setup) data s.world).1 with
    | data b =>
      rw [hs, Said.Is] at h1
      rw [h1] at this
      exact (Outcome.ok.inj this).symm
    | failure =>
      rw [hs, Said.Is] at h1
      obtain ⟨e, h1⟩ := h1
      rw [h1] at this
      exact (Outcome.ok.inj this).symm
    | crash =>
      rw [hs, Said.Is] at h1
      rw [h1] at this
      simp at this

theorem holding_snoc (log : List (Cmd × Resp)) (e : Cmd × Resp) :
    holding (log ++ [e]) = grant (holding log) e := by
  unfold holding; rw [List.foldl_append]; rfl

theorem coherent_snoc {σ} (env : Env σ) (p : Profile) (log : List (Cmd × Resp)) (e : Cmd × Resp)
    (h : Coherent env p log) (he : Exchange env p (holding log) e) : Coherent env p (log ++ [e]) := by
  intro pre e' post heq
  rcases List.eq_nil_or_concat post with rfl | ⟨post', y, rfl⟩
  · have := List.append_inj' heq (by simp)
    obtain ⟨rfl, h2⟩ := this
    simp only [List.cons.injEq, and_true] at h2
    subst h2
    exact he
  · rw [List.concat_eq_append, ← List.cons_append, ← List.append_assoc] at heq
    exact h pre e' post' (List.append_inj_left' heq (by simp))

/-- What is known of a connection in terms of its conversation. -/
structure Talk {σ} (env : Env σ) (p : Profile) (s : Shared σ) (x : Conn) : Prop where
  coherent : Coherent env p x.served
  live : x.status = .running → x.current = (holding x.served).map Device.busId ∧
    ∀ d, holding x.served = some d → amGet d.busId s.used = some d

theorem talk_iterate {σ} (env : Env σ) (p : Profile) (S : Sys σ) (hi : Inv S.shared S.conns) (c : Nat)
    (x : Conn) (w : WriteRes) (hx : S.conns c = some x) (hr : x.status = .running)
    (h : Talk env p S.shared x) : Talk env p (x.iterate env p S.shared w).1 (x.iterate env p S.shared w).2 := by
  obtain ⟨hcur, hrec⟩ := h.live hr
  have hstep : S.step env p (.iterate c w)
      = { shared := (x.iterate env p S.shared w).1
          conns := setConn S.conns c (x.iterate env p S.shared w).2 } := by
    simp only [Sys.step, hx, if_pos hr]
  have hkept : ∀ d, holding x.served = some d → (x.iterate env p S.shared w).2.status = .running →
      (x.iterate env p S.shared w).2.current = some d.busId →
      amGet d.busId (x.iterate env p S.shared w).1.used = some d := by
    intro d hd h1 h2
    have := kept env p S hi (.iterate c w) trivial c (x.iterate env p S.shared w).2 d.busId d
      (by rw [hstep]; simp [setConn]) h1 h2 (hrec d hd)
    rw [hstep] at this
    exact this
  have hres := iterate_res env p S.shared x w
  generalize (x.iterate env p S.shared w).1 = s' at hres hkept ⊢
  generalize (x.iterate env p S.shared w).2 = x' at hres hkept ⊢
  clear hstep
  cases hres with
  | done e s' hr hrel =>
    exact ⟨h.coherent, fun hst => by dsimp only at hst; split at hst <;> simp at hst⟩
  | missing e hr hrel => exact ⟨h.coherent, fun hst => by simp at hst⟩
  | readPanic hr => exact ⟨h.coherent, fun hst => by simp at hst⟩
  | writeFailed cmd rest resp s' cur' bytes n e hr hs hb hw => exact ⟨h.coherent, fun hst => by simp at hst⟩
  | writeCut cmd rest resp s' cur' bytes n hr hs hb hw => exact ⟨h.coherent, fun hst => by simp at hst⟩
  | servePanic cmd rest hr hs => exact ⟨h.coherent, fun hst => by simp at hst⟩
  | answered cmd rest resp s' cur' bytes hr' hs hb hw =>
    dsimp only at hkept
    cases cmd with
    | reqDevlist st =>
      simp only [Shared.serve, Prod.mk.injEq, Outcome.ok.injEq] at hs
      obtain ⟨rfl, rfl, rfl⟩ := hs
      refine ⟨coherent_snoc env p _ _ h.coherent trivial, fun _ => ?_⟩
      dsimp only
      rw [holding_snoc]
      exact ⟨hcur, hrec⟩
    | unlink hd n =>
      simp only [Shared.serve, Prod.mk.injEq, Outcome.ok.injEq] at hs
      obtain ⟨rfl, rfl, rfl⟩ := hs
      refine ⟨coherent_snoc env p _ _ h.coherent trivial, fun _ => ?_⟩
      dsimp only
      rw [holding_snoc]
      exact ⟨hcur, hrec⟩
    | reqImport st b =>
      simp only [Shared.serve, Shared.import] at hs
      cases ht : takeFirst (busidCompare b) S.shared.available with
      | none =>
        rw [ht] at hs
        simp only [Prod.mk.injEq, Outcome.ok.injEq] at hs
        obtain ⟨rfl, rfl, rfl⟩ := hs
        refine ⟨coherent_snoc env p _ _ h.coherent trivial, fun _ => ?_⟩
        dsimp only
        rw [holding_snoc]
        exact ⟨rfl, fun d hd => by simp [grant, opRepImportFail] at hd⟩
      | some q =>
        obtain ⟨dev, rst⟩ := q
        rw [ht] at hs
        simp only [Prod.mk.injEq, Outcome.ok.injEq] at hs
        obtain ⟨rfl, rfl, rfl⟩ := hs
        obtain ⟨l1, l2, hl, _, hb', hn⟩ := takeFirst_some.mp ht
        refine ⟨coherent_snoc env p _ _ h.coherent (show dev.busId = cstr b from hb'), fun _ => ?_⟩
        dsimp only
        rw [holding_snoc]
        refine ⟨rfl, fun d hd => ?_⟩
        have : dev = d := by simpa [grant, opRepImportSuccess] using hd
        subst this
        exact amGet_insert_self
    | submit hd a len b n c' setup data iso =>
      have hserve := hs
      simp only [Shared.serve] at hs
      cases hb' : x.current.bind (fun id => amGet id S.shared.used) with
      | none => rw [hb'] at hs; simp at hs
      | some d =>
        rw [hb'] at hs
        simp only [Prod.mk.injEq] at hs
        obtain ⟨hresp, _, rfl⟩ := hs
        cases hh : holding x.served with
        | none => rw [hcur, hh] at hb'; simp at hb'
        | some d' =>
          rw [hcur, hh] at hb'
          have hg : amGet d'.busId S.shared.used = some d := hb'
          rw [hrec d' hh, Option.some.injEq] at hg
          subst hg
          refine ⟨coherent_snoc env p _ _ h.coherent ?_, fun _ => ?_⟩
          · exact ⟨d', hh, submit_answered env p _ d' hd len setup data resp hresp⟩
          · dsimp only
            rw [holding_snoc]
            refine ⟨hcur, fun d hd' => ?_⟩
            have hd'' : holding x.served = some d := hd'
            exact hkept d hd'' hr (by rw [hcur, hd'']; rfl)

/-- One event, for all connections. -/
theorem talk_step {σ} (env : Env σ) (p : Profile) (S : Sys σ) (hi : Inv S.shared S.conns)
    (h : ∀ c x, S.conns c = some x → Talk env p S.shared x) (e : Event σ)
    (hf : match e with
     | .addDevice d => ∀ x ∈ onServer S.shared, x.busId ≠ d.busId
     | _ => True) :
    ∀ c x, (S.step env p e).conns c = some x → Talk env p (S.step env p e).shared x := by
  -- a connection that is not touched
  have same : ∀ c x, S.conns c = some x → (S.step env p e).conns c = some x →
      Talk env p (S.step env p e).shared x := by
    intro c x hx hx'
    refine ⟨(h c x hx).coherent, fun hr => ?_⟩
    obtain ⟨h1, h2⟩ := (h c x hx).live hr
    refine ⟨h1, fun d hd => ?_⟩
    exact kept env p S hi e hf c x d.busId d hx' hr (by rw [h1, hd]; rfl) (h2 d hd)
  intro c x hx
  cases e with
  | connect c' input =>
    cases hy : S.conns c' with
    | some y =>
      have : S.step env p (.connect c' input) = S := by simp only [Sys.step, hy]
      rw [this] at hx ⊢; exact h c x hx
    | none =>
      by_cases hcc : c = c'
      · subst hcc
        simp only [Sys.step, hy, setConn, if_true, Option.some.injEq] at hx ⊢
        subst hx
        refine ⟨?_, fun _ => ⟨rfl, fun d hd => by simp [Conn.new, holding] at hd⟩⟩
        intro pre e post heq
        simp [Conn.new] at heq
      · refine same c x ?_ hx
        simpa only [Sys.step, hy, setConn, if_neg hcc] using hx
  | iterate c' w =>
    cases hy : S.conns c' with
    | none =>
      have : S.step env p (.iterate c' w) = S := by simp only [Sys.step, hy]
      rw [this] at hx ⊢; exact h c x hx
    | some y =>
      by_cases hyr : y.status = .running
      · by_cases hcc : c = c'
        · subst hcc
          simp only [Sys.step, hy, hyr, if_true, setConn, Option.some.injEq] at hx ⊢
          subst hx
          exact talk_iterate env p S hi c y w hy hyr (h c y hy)
        · refine same c x ?_ hx
          simpa only [Sys.step, hy, hyr, if_true, setConn, if_neg hcc] using hx
      · have : S.step env p (.iterate c' w) = S := by simp only [Sys.step, hy, hyr, if_false]
        rw [this] at hx ⊢; exact h c x hx
  | cancel c' =>
    cases hy : S.conns c' with
    | none =>
      have : S.step env p (.cancel c') = S := by simp only [Sys.step, hy]
      rw [this] at hx ⊢; exact h c x hx
    | some y =>
      by_cases hyr : y.status = .running
      · by_cases hcc : c = c'
        · subst hcc
          simp only [Sys.step, hy, hyr, if_true, setConn, Option.some.injEq] at hx ⊢
          subst hx
          exact ⟨(h c y hy).coherent, fun hr => by simp at hr⟩
        · refine same c x ?_ hx
          simpa only [Sys.step, hy, hyr, if_true, setConn, if_neg hcc] using hx
      · have : S.step env p (.cancel c') = S := by simp only [Sys.step, hy, hyr, if_false]
        rw [this] at hx ⊢; exact h c x hx
  | addDevice d => exact same c x hx hx
  | removeDevice id => exact same c x hx hx
  | user f => exact same c x hx hx

end Usbip
