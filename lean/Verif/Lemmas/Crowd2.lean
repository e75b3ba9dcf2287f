import Verif.Lemmas.Crowd
/-! Executions to order: several hosts, each of which hears its answer. -/

namespace Usbip
open Spec Samples

section
variable {τ : Type} {code : Code τ} {env : Env (HandlerId → τ)} {p : Profile} {devices : List Device}
  {w : World (HandlerId → τ)}

/-- The requests of the hosts. -/
def asks (busid : Nat → Bytes) (c : Nat) : Bytes := wireCmd (.reqImport 0 (busid c))

/-- Before anything has happened. -/
def crowdStart (devices : List Device) (w : World (HandlerId → τ)) : Net (HandlerId → τ) := Net.init devices w

/-- The part of the `k` hosts, and of other clients up to `k2`, fits: host `c` hears its answer after the first `seen c` things. -/
structure CrowdFits (env : Env (HandlerId → τ)) (p : Profile) (devices : List Device) (w : World (HandlerId → τ)) (busid : Nat → Bytes)
    (k k2 : Nat) (pl : List Turn) (seen : Nat → Nat) : Prop where
  le : k ≤ k2
  width : ∀ c, c < k → (busid c).length = 32
  turnable : turnable env p (crowdStart devices w) pl = true
  once : (pl.filterMap Turn.enters).Nodup
  asks : ∀ c, c < k → pl.flatMap (Turn.brings c) = asks busid c
  comes : ∀ c, c < k2 → ∃ bs, .enter c bs ∈ pl
  consumed : ∀ c, c < k2 → ∀ x, (netTurns env p (crowdStart devices w) pl).sys.conns c = some x →
    x.input.bytes = [] ∧ (x.status = .running → (netTurns env p (crowdStart devices w) pl).ended c = none)
  others : ∀ x ∈ pl, match x with | .enter c _ => c < k2 | .iterate c _ => c < k2 | .hangup c _ => c < k2 | .add _ => True
  hears : ∀ c, c < k → seen c ≤ pl.length ∧ outOf ((netTurns env p (crowdStart devices w) (pl.take (seen c))).sys.conns c) =
    outOf ((netTurns env p (crowdStart devices w) pl).sys.conns c)

/-- All of it happens. -/
structure Crowded (e : MachineExec code env p (Machine.init code devices w)) (d : Nat → Nat → Driver) (busid : Nat → Bytes)
    (devid : Nat → UInt32) (k k2 : Nat) (pl : List Turn) : Prop where
  fair : e.Fair
  noRemovals : ∀ n t f i m k, (e.state n).whole.fine.cfg.flights t = some f → f.ev = .removeDevice i → f.code ≠ .lock .used m k
  alongside : ∀ c, c < k → Alongside e c (busid c) (devid c) (d c)
  delivers : ∀ c, c < k → Delivers e c (d c)
  only : ∀ n c, (e.state n).front c = .accepted → c < k2
  queued : ∀ c, c < k2 → ∃ n, (e.state n).calls 0 = some (.listening [c])
  serves : ∀ m i, e.label m ≠ some (.dropServe i)
  owns : ∀ n l, e.label n = some (.inner l) → ∀ ev, tcpEvent l = some ev → ∃ x ∈ pl, x.events = [ev]
  after : ∃ T : Nat → Nat, (∀ i j, i ≤ j → j ≤ pl.length → T i ≤ T j) ∧
    (∀ i, i ≤ pl.length → Resting env p devices w (e.state (T i)).whole ∧
      restOf (e.state (T i)).whole.tcp = netTurns env p (crowdStart devices w) (pl.take i)) ∧
    ∀ n c, (e.state n).front c = .accepted → ∃ i bs, pl[i]? = some (.enter c bs) ∧ T (i + 1) ≤ n
  given : ∀ n, devicesBy e.label devices n <+: devices ++ pl.flatMap Turn.gives
  before : ∀ n c, (e.state n).front c = .accepted → ∃ i bs, pl[i]? = some (.enter c bs) ∧
    devices ++ (pl.take i).flatMap Turn.gives <+: devicesBy e.label devices n
  last : ∃ N, ∀ n, N ≤ n → (∀ c, c < k → d c n = (Driver.start (busid c) (devid c)).hear
      (outOf ((netTurns env p (crowdStart devices w) pl).sys.conns c))) ∧
    (e.state n).whole.ended = (netTurns env p (crowdStart devices w) pl).ended
  arrives : ∀ c n, arrivedBy e.label c n <+: pl.flatMap (Turn.brings c)
  arrived : ∃ N, ∀ c, arrivedBy e.label c N = pl.flatMap (Turn.brings c)
  sent : ∀ n c, (e.state n).whole.got c <+: outOf ((netTurns env p (crowdStart devices w) pl).sys.conns c)
  hears : ∃ N, ∀ n, N ≤ n → ∀ c, (e.state n).whole.got c = outOf ((netTurns env p (crowdStart devices w) pl).sys.conns c)

theorem netTurns_other {c k : Nat} (hc : k ≤ c) : ∀ (pl : List Turn) (N : Net (HandlerId → τ)),
    (∀ x ∈ pl, match x with | .enter c _ => c < k | .iterate c _ => c < k | .hangup c _ => c < k | .add _ => True) →
    (netTurns env p N pl).sys.conns c = N.sys.conns c := by
  intro pl
  induction pl with
  | nil => exact fun _ _ => rfl
  | cons x pl ih =>
    intro N ho
    have h0 := ho x (List.mem_cons_self ..)
    have e0 : netTurns env p N (x :: pl) = netTurns env p (N.run env p x.events) pl := by
      unfold netTurns Net.run
      rw [List.flatMap_cons, List.foldl_append]
    rw [e0]
    refine (ih _ (fun y hy => ho y (List.mem_cons_of_mem _ hy))).trans ?_
    cases x with
    | enter c' bs =>
      have h0 : c' < k := h0
      have h1 : (N.step env p (.connect c')).sys.conns c = N.sys.conns c := by
        simp only [Net.step, Sys.step]
        split
        · rfl
        · exact setConn_ne (by omega)
      show ((N.step env p (.connect c')).step env p (.arrive c' bs)).sys.conns c = _
      rw [← h1]
      generalize N.step env p (.connect c') = N1
      simp only [Net.step]
      split
      · exact setConn_ne (by omega)
      · rfl
    | hangup c' er =>
      have h0 : c' < k := h0
      show (N.step env p (.hangup c' er)).sys.conns c = _
      simp only [Net.step]
      split
      · exact setConn_ne (by omega)
      · rfl
    | iterate c' wr =>
      have h0 : c' < k := h0
      exact net_iterate_other (by omega)
    | add d' => rfl

theorem crowded (hb : Behaves code env) (hret : Returns code) {busid : Nat → Bytes} (devid : Nat → UInt32) {k k2 : Nat} {pl : List Turn}
    {seen : Nat → Nat} (hf : CrowdFits env p devices w busid k k2 pl seen) :
    ∃ (e : MachineExec code env p (Machine.init code devices w)) (d : Nat → Nat → Driver), Crowded e d busid devid k k2 pl := by
  let MK : Machine code := { Machine.init code devices w with calls := upd (fun _ => none) 0 (some (.listening [])) }
  have hM : Resting env p devices w MK.whole := ⟨⟨[], .refl⟩, ⟨_, _, rfl⟩, fun _ => rfl, fun _ => rfl⟩
  have hN : restOf MK.whole.tcp = crowdStart devices w := rfl
  obtain ⟨E, T0, P⟩ := turned (p := p) hb hret pl MK hM (by rw [hN]; exact hf.turnable) rfl hf.once (fun _ _ => rfl)
  have t0 : Machine.Step code env p (Machine.init code devices w) (some (.serve 0 true)) MK :=
    Machine.Step.serve (code := code) (env := env) (p := p) (Machine.init code devices w) 0 true rfl
  let e := E.cons t0
  obtain ⟨B, hB⟩ : ∃ B, B = 1 := ⟨_, rfl⟩
  have es : ∀ n, e.state (B + n) = E.state n := by
    intro n
    rw [show B + n = n + 1 by omega]; rfl
  have el : ∀ n, e.label (B + n) = E.label n := by
    intro n
    rw [show B + n = n + 1 by omega]; rfl
  have sh : ∀ n, B ≤ n → ∃ m, n = B + m := fun n h => ⟨n - B, by omega⟩
  have owns : ∀ n l, e.label n = some (.inner l) → ∃ x ∈ pl, x.owns (.inner l) := by
    intro n l hl
    by_cases hn : n < B
    · obtain rfl : n = 0 := by omega
      cases hl
    · obtain ⟨m, rfl⟩ := sh n (by omega)
      rw [el] at hl
      exact P.owns m _ hl
  obtain ⟨L, hL⟩ : ∃ L, L = pl.length := ⟨_, rfl⟩
  -- what arrives
  have aA : ∀ c, arrivedBy e.label c (B + T0 L) = pl.flatMap (Turn.brings c) := by
    intro c
    rw [arrivedBy_after el, hL, P.arrived c]
    subst hB
    rfl
  have aB : ∀ c, c < k → arrivedBy e.label c (B + T0 L) = asks busid c := fun c hc => (aA c).trans (hf.asks c hc)
  have later : ∀ c n, B + T0 L ≤ n → arrivesAt c (e.label n) = [] := by
    intro c n hn
    obtain ⟨m, rfl⟩ := sh n (by omega)
    rw [el, P.quiet m (by rw [← hL]; omega)]
    rfl
  have aStill : ∀ c n, B + T0 L ≤ n → arrivedBy e.label c n = arrivedBy e.label c (B + T0 L) := by
    intro c n hn
    obtain ⟨m, rfl⟩ := Nat.exists_eq_add_of_le hn
    rw [arrivedBy_still m (fun i h1 _ => later c i h1)]
  have aEnd : ∀ c, c < k → ∀ n, B + T0 L ≤ n → arrivedBy e.label c n = asks busid c := fun c hc n hn => (aStill c n hn).trans (aB c hc)
  -- what is received
  have Tmono' : ∀ i j, i ≤ j → j ≤ L → T0 i ≤ T0 j := by
    intro i j hij hj
    obtain ⟨j, rfl⟩ := Nat.exists_eq_add_of_le hij
    clear hij
    induction j with
    | zero => exact Nat.le_refl _
    | succ j ih =>
      have := P.mono (i + j) (by omega)
      have := ih (by omega)
      rw [← Nat.add_assoc]; omega
  have Tmono : ∀ i, i ≤ L → T0 i ≤ T0 L := fun i hi => Tmono' i L hi (Nat.le_refl _)
  have gmono : ∀ c {n m}, n ≤ m → (e.state n).whole.got c <+: (e.state m).whole.got c := by
    intro c n m h
    obtain ⟨j, rfl⟩ := Nat.exists_eq_add_of_le h
    clear h
    induction j with
    | zero => exact List.prefix_refl _
    | succ j ih => exact ih.trans (machine_got_mono e (n + j) c)
  have gT : ∀ c i, i ≤ L → (e.state (B + T0 i)).whole.got c =
      outOf ((netTurns env p (crowdStart devices w) (pl.take i)).sys.conns c) := by
    intro c i hi
    obtain ⟨g1, g2⟩ := P.rest i (by omega)
    rw [es, g1.got, g2, hN]
  obtain ⟨g1, g2⟩ := P.rest L (by omega)
  have late : ∀ m, B + T0 L ≤ m → e.state m = E.state (T0 L) := by
    intro m hm
    obtain ⟨j, rfl⟩ := sh m (by omega)
    rw [es, hL]; exact P.done j (by rw [← hL]; omega)
  have full : pl.take L = pl := by rw [hL]; exact List.take_length
  rw [hN, full] at g2
  have gEnd : ∀ c n, (e.state n).whole.got c <+: (e.state (B + T0 L)).whole.got c := by
    intro c n
    by_cases h : n ≤ B + T0 L
    · exact gmono c h
    · rw [late n (by omega), es]
      exact List.prefix_refl _
  let N : Nat → Nat := fun c => B + T0 (seen c)
  let out : Nat → Bytes := fun c => outOf ((netTurns env p (crowdStart devices w) pl).sys.conns c)
  let d : Nat → Nat → Driver := fun c n => if n ≤ N c then Driver.start (busid c) (devid c) else
    (Driver.start (busid c) (devid c)).hear (out c)
  have dlo : ∀ c n, n ≤ N c → d c n = Driver.start (busid c) (devid c) := fun c n h => if_pos h
  have dhi : ∀ c n, N c < n → d c n = (Driver.start (busid c) (devid c)).hear (out c) := fun c n h => if_neg (by omega)
  have saidIt : ∀ c n, (d c n).said.flatMap wireCmd = asks busid c := by
    intro c n
    by_cases h : n ≤ N c
    · rw [dlo c n h]; simp [Driver.start, asks]
    · rw [dhi c n (by omega), (hear_ghosts _ _).1]; simp [Driver.start, asks]
  have gseen : ∀ c, c < k → (e.state (N c)).whole.got c = out c := by
    intro c hc
    obtain ⟨q1, q2⟩ := hf.hears c hc
    rw [gT c _ (by omega)]; exact q2
  have connK : ∀ c x, (E.state (T0 L)).whole.fine.cfg.conns c = some x → c < k2 := by
    intro c x hx
    apply Classical.byContradiction
    intro hc
    have h1 := netTurns_other (env := env) (p := p) (c := c) (k := k2) (by omega) pl (crowdStart devices w) hf.others
    rw [← g2] at h1
    simp [restOf, Whole.tcp, hx, crowdStart, Net.init, Sys.init] at h1
  have connO : ∀ c x, (E.state (T0 L)).whole.fine.cfg.conns c = some x →
      (x.input.bytes = [] ∧ (E.state (T0 L)).whole.buf c = []) ∧ (x.status = .running → (E.state (T0 L)).whole.ended c = none) := by
    intro c x hx
    have h1 := hf.consumed c (connK c x hx)
    rw [← g2] at h1
    obtain ⟨h2, h3⟩ := h1 _ (congrArg (Option.map _) hx)
    exact ⟨List.append_eq_nil_iff.mp h2, h3⟩
  refine ⟨e, d, ?_, ?_, fun c hc => ⟨?_, hf.width c hc, fun n => ?_, fun n => ?_, fun n => ?_⟩, fun c hc => ⟨fun n => ?_, fun n => ?_⟩,
    fun n c h => ?_, fun c hc => ?_, fun m i hl => ?_, fun n l hl ev he => ?_,
    ⟨fun i => B + T0 i, fun i j h1 h2 => Nat.add_le_add_left (Tmono' i j h1 (by omega)) _, fun i hi => ?_, fun n c h => ?_⟩,
    fun n => ?_, fun n c h => ?_, ⟨B + T0 L + 1, fun n hn => ⟨fun c hc => ?_, ?_⟩⟩, fun c n => ?_, ⟨B + T0 L, aA⟩, fun n c => ?_, ⟨B + T0 L, fun n hn c => ?_⟩⟩
  · refine e.rest_fair (B + T0 L) late (fun t => g1.rest.none t) g1.inside g1.app (fun c x hx => (connO c x hx).1.2)
      (fun c x hx hr => ⟨?_, (connO c x hx).2 hr⟩) (fun k c q h => ?_)
    · rw [(connO c x hx).1.1]; rfl
    · rw [hL, P.calls] at h
      by_cases h0 : k = 0
      · subst h0; simp [MK, upd] at h
      · simp [MK, upd, h0] at h
  · refine no_removals hb e (fun n t i hl => ?_)
    obtain ⟨x, _, h2 | ⟨_, _, _, h2⟩⟩ := owns n _ hl
    · obtain ⟨l, h3, _, _, h4⟩ := h2
      cases h3
      have := h4 t _ rfl
      cases x <;> cases this
    · rcases h2 with h2 | h2 | h2 <;> cases h2
  · exact dlo c 0 (Nat.zero_le _)
  · by_cases h : n + 1 ≤ N c
    · rw [dlo c n (by omega), dlo c _ h]; exact .refl _
    · rw [dhi c (n + 1) (by omega)]
      by_cases h2 : n ≤ N c
      · rw [dlo c n h2]; exact .hear (.refl _) _
      · rw [dhi c n (by omega)]; exact .refl _
  · by_cases h : n + 1 ≤ N c
    · rw [dlo c _ h]; exact List.nil_prefix
    · rw [dhi c _ (by omega), (hear_ghosts _ _).2.1]
      refine List.IsPrefix.trans ?_ (gmono c (show N c ≤ n by omega))
      rw [gseen c hc]; exact List.prefix_refl _
  · rw [saidIt]
    by_cases h : n ≤ B + T0 L
    · rw [← aB c hc]; exact arrivedBy_mono h
    · rw [aEnd c hc n (by omega)]; exact List.prefix_refl _
  · refine ⟨n + (B + T0 L), by omega, ?_⟩
    rw [saidIt, aEnd c hc _ (by omega)]; exact List.prefix_refl _
  · refine ⟨n + N c + 1, by omega, ?_⟩
    rw [dhi c _ (by omega), (hear_ghosts _ _).2.1]
    have := gEnd c n
    rw [gT c L (Nat.le_refl _), full] at this
    exact this
  · by_cases hn : n < B
    · obtain rfl : n = 0 := by omega
      cases h
    · obtain ⟨m, rfl⟩ := sh n (by omega)
      rw [es] at h
      rcases P.front m c h with h | ⟨i, bs, h1, _⟩
      · cases h
      · exact hf.others _ (List.mem_of_getElem? h1)
  · obtain ⟨bs, hbs⟩ := hf.comes c hc
    obtain ⟨n, h⟩ := P.queued c bs hbs
    exact ⟨B + n, by rw [es]; exact h⟩
  · by_cases hn : m < B
    · obtain rfl : m = 0 := by omega
      cases hl
    · obtain ⟨j, rfl⟩ := sh m (by omega)
      rw [el] at hl
      obtain ⟨x, _, ⟨l, h, _⟩ | ⟨_, _, _, h⟩⟩ := P.owns j _ hl
      · cases h
      · rcases h with h | h | h <;> cases h
  · obtain ⟨x, h1, ⟨l, h, _, h2, _⟩ | ⟨_, _, _, h⟩⟩ := owns n _ hl
    · cases h
      exact ⟨x, h1, h2 ev he⟩
    · rcases h with h | h | h <;> cases h
  · rw [es]
    exact P.rest i hi
  · by_cases hn : n < B
    · obtain rfl : n = 0 := by omega
      cases h
    · obtain ⟨m, rfl⟩ := sh n (by omega)
      rw [es] at h
      rcases P.front m c h with h | ⟨i, bs, h1, h2⟩
      · cases h
      · exact ⟨i, bs, h1, Nat.add_le_add_left h2 _⟩
  · refine List.IsPrefix.trans (devicesBy_prefix e.label devices (show n ≤ max n (B + T0 L) by omega)) ?_
    obtain ⟨m, hm⟩ := sh (max n (B + T0 L)) (by omega)
    rw [hm, devicesBy_after el, hB, show devicesBy e.label devices 1 = devices from List.append_nil _]
    obtain ⟨j, rfl⟩ := Nat.exists_eq_add_of_le (show T0 L ≤ m by omega)
    rw [devicesBy_after (l := E.label) (l' := fun k => E.label (T0 L + k)) (fun k => rfl), P.given L (by omega),
      devicesBy_quiet _ j (fun k _ => by rw [P.quiet (T0 L + k) (by rw [← hL]; omega)]; rfl), full]
    exact List.prefix_refl _
  · by_cases hn : n < B
    · obtain rfl : n = 0 := by omega
      cases h
    · obtain ⟨m, rfl⟩ := sh n (by omega)
      rw [es] at h
      rcases P.front m c h with h | ⟨i, bs, h1, h2⟩
      · cases h
      · refine ⟨i, bs, h1, ?_⟩
        have hi : i < pl.length := (List.getElem?_eq_some_iff.mp h1).1
        have := P.mono i hi
        rw [devicesBy_after el, hB, show devicesBy e.label devices 1 = devices from List.append_nil _, ← P.given i (by omega)]
        exact devicesBy_prefix _ _ (by omega)
  · have := Tmono (seen c) (by rw [hL]; exact (hf.hears c hc).1)
    exact dhi c n (by show B + T0 (seen c) < n; omega)
  · rw [late n (by omega)]
    rw [← g2]; rfl
  · by_cases h : n ≤ B + T0 L
    · rw [← aA c]; exact arrivedBy_mono h
    · rw [aStill c n (by omega), aA c]; exact List.prefix_refl _
  · have := gEnd c n
    rw [gT c L (Nat.le_refl _), full] at this
    exact this
  · rw [late n hn, ← es, gT c L (Nat.le_refl _), full]

end

end Usbip
