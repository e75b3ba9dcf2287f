import Verif.Lemmas.NusbHost
import Verif.Lemmas.AttendedSample
/-! # C102: a Linux host uses a device that is shared through nusb -/

namespace Usbip
open Spec

theorem called_key (x : NusbDoes) : x.called = (doesKey x).bind Sum.getLeft? := by cases x <;> rfl

theorem crashes_key (x : NusbDoes) : x.Crashes ↔ ∃ h, doesKey x = some (.inr h) := by
  cases x <;> simp [NusbDoes.Crashes, doesKey]

section
variable {σ τ : Type} {via : HandlerId → Option HandlerId} {host : HandlerId → NusbHost τ} {code : Code σ} {env : Env (HandlerId → σ)}
  {p : Profile} {devices : List Device} {dev : Device} {o : HandlerId}
  {w : World (HandlerId → σ × (τ × List NusbCall))}
  {e : MachineExec (nusbCode via (watched host) code) (nusbEnv via (watched host) env) p (Machine.init _ devices w)}
  {c : Nat} {busid : Bytes} {devid : UInt32} {d : Nat → Driver}

/-- C102: a Linux host has attached a device that is shared through nusb.  There is a place in the sequence of all nusb calls for the
device, at the beginning if nobody else is ever let in, from which the calls are those of the host:
* what the host's USB core is given back are the answers to the calls from there on, one by one and in order, each for the
  transfer that asked for this call;
* a transfer with which a handler crashes (a bulk or interrupt transfer, or one whose setup packet has a reserved request type or
  recipient) is never given back;
* at a moment at which the server is between commands of the host's connection, which goes on, and nobody is using the device,
  all calls made from there on were asked for by the host, in this order and once each, and so far no crash was asked for by the
  transfers that were answered;
* every transfer asked for is given back some time (so its call was made, once), unless the connection is gone, or a response did
  not fit its request;
* a host that asks for a crash has the device taken away from everybody: its task ends, and does not give it back (so with C101 no
  other host gets it), unless the connection is gone for another reason, or a response did not fit its request. -/
theorem C102_device (hb : Behaves code env) (hl : ∀ o, (host o).Honest) (ha : Alongside e c busid devid d)
    (hD : SharesNusb e devices dev o busid) (h0 : (w.user o).2.2 = []) :
    ∃ log j, Exchanged e c d log ∧ (Lone e c → j = 0) ∧
      (∀ n, (∀ e ∈ log n, Modest e.2.1) → (d n).phase ≠ .broken →
        nusbReturned via o dev (d n) <+: (nusbAnswers (host o) (w.user o).2.1 (nusbMade (e.state n) o)).drop j ∧
        (∀ g ∈ (d n).done, ¬ (nusbRequest via o dev (g.urb.cmd (d n).devid g.seq)).Crashes) ∧
        ((d n).phase = .attached → j ≤ (nusbMade (e.state n) o).length) ∧
        ((d n).phase = .attached → (e.state n).whole.fine.cfg.idle c → (e.state n).whole.fine.free o →
          (∃ x, (e.state n).whole.fine.cfg.conns c = some x ∧ x.status = .running) →
          (nusbMade (e.state n) o).drop j <+: nusbWanted via o dev (d n) ∧
          ∀ g ∈ log n, ¬ (nusbRequest via o dev g.1).Crashes)) ∧
      (Returns code → e.Fair →
        (∀ n t f i m k, (e.state n).whole.fine.cfg.flights t = some f → f.ev = .removeDevice i → f.code ≠ .lock .used m k) →
        Delivers e c d →
        (∀ n, (e.state n).front c = .accepted →
          ∃ m, n ≤ m ∧ (((d m).phase ≠ .importing ∧ (d m).phase ≠ .broken ∧
            nusbWanted via o dev (d n) <+: (nusbReturned via o dev (d m)).map (·.1)) ∨
            Spoiled e c d log m)) ∧
        ∀ n, (d n).phase = .attached → (∃ g ∈ (d n).issued, (nusbRequest via o dev (g.2.cmd (d n).devid g.1)).Crashes) →
          ∃ m, n ≤ m ∧ ((∀ k, m ≤ k → TookAlong (e.state k) c dev) ∨
            (∃ e ∈ log m, ¬ Modest e.2.1) ∨ Overrun (log m) (d m).heard ∨ (e.state m).whole.ended c ≠ none ∨
            ∃ y, (e.state m).whole.fine.cfg.conns c = some y ∧ e.Faulted c m y)) := by
  have hb' := nusb_behaves via (watched host) code env hb
  obtain ⟨ls, L, hA⟩ := all_told hb' e
  have hf : ∀ n, Told e c n (ls n) (L c n) ∧ L c n <+: L c (n + 1) := fun n => ⟨hA.told c n, hA.grows c n⟩
  have hU : Uses e o Prod.snd noDeed (fun _ => []) :=
    ⟨fun n a e0 h _ => absurd h (hD.untouched n a e0), fun _ _ => rfl⟩
  obtain ⟨q, hq⟩ := exists_life (tag := id) hb' ha (nusb_works o (hl o)) hU hD.named
    (fun n d hd call k hk ht => hD.only n d hd _ ht (by
      unfold onNusb at hk
      split at hk
      · assumption
      · cases hk)) hD.single (fun n => (ls n, L c n)) hf hA.zero hA.succ
  dsimp only at hq
  have hx : Exchanged e c d (fun n => (L c n).map (·.2)) := exchanged_told hb' ha (fun n => (ls n, L c n)) hf
  have hthen : ∀ {n m}, n ≤ m → (q n).Then (q m) := fun h => then_le (fun n => (hq n).2) h
  -- the calls before the host had the device
  have hpre : ∀ n, ∃ cs, (objNext (nusbObj (host o)) noDeed (w.user o).2 (q n).pre).2 = cs ∧
      (objNext (nusbObj (host o)) noDeed (w.user o).2 (q n).pre).1 = cs.foldl (fun t c => c.after (host o) t) (w.user o).2.1 := by
    intro n
    obtain ⟨cs, h1, h2, _⟩ := nusb_run (host o) (q n).pre (w.user o).2
    rw [h0, List.nil_append] at h1
    exact ⟨cs, h1, h2⟩
  obtain ⟨j, hj, hj0⟩ : ∃ j, (∀ n, (q n).started = true →
      (objNext (nusbObj (host o)) noDeed (w.user o).2 (q n).pre).2.length = j) ∧ (Lone e c → j = 0) := by
    by_cases hs : ∃ n, (q n).started = true
    rotate_left
    · exact ⟨0, fun n h => absurd ⟨n, h⟩ hs, fun _ => rfl⟩
    · obtain ⟨n, hn⟩ := hs
      refine ⟨(objNext (nusbObj (host o)) noDeed (w.user o).2 (q n).pre).2.length, fun m hm => ?_, fun hlone => ?_⟩
      rotate_left
      · have hnone : ∀ c', c' ≠ c → (behindNet (nusbEnv via (watched host) env) p devices w (ls n)).sys.conns c' = none :=
          fun c' hc' => not_accepted hb' (hf n).1.inv (hlone n c' hc')
        have := (hq n).1.alone hnone (w.user o).2
        cases hp : (q n).pre with
        | nil => simp [objNext, h0]
        | cons op ops =>
          rw [hp] at this
          cases op with
          | app a => exact nomatch a
          | urb k => simp [objAnswers] at this
      · rcases Nat.le_total n m with h | h
        · rw [((hthen h).started hn).2]
        · rw [((hthen h).started hm).2]
  -- an attached host has the device
  have hatt : ∀ n, (∀ e ∈ (L c n).map (·.2), Modest e.2.1) → (d n).phase = .attached →
      (q n).started = true ∧ GivenBy dev (L c n) := by
    intro n hm hp
    obtain ⟨e0, rest', dv, h1, h2, h3, _⟩ :=
      (C92_safe _ _ p devices w e c busid devid d ha _ hx n hm).2.2.2.1 hp
    refine ⟨?_, e0, rest', h1, ?_⟩
    rotate_left
    · have hmem : e0 ∈ (L c n).map (·.2) := by rw [h1]; exact List.mem_cons_self ..
      obtain ⟨g, hg, rfl⟩ := List.mem_map.mp hmem
      have := fromDevice ha hD.named hD.single hA.zero hA.succ (hA.told c n) g hg
      rw [h2, h3] at this
      rw [h3, this _ _ rfl]
    cases hs : (q n).started with
    | true => rfl
    | false =>
      obtain ⟨_, _, h4, _⟩ := (hq n).1.idle hs
      cases hL : L c n with
      | nil => rw [hL] at h1; cases h1
      | cons e1 L' =>
        rw [hL] at h1
        simp only [List.map_cons, List.cons.injEq] at h1
        exact absurd (by rw [h1.1]; exact h3) ((h4 e1 (by rw [hL]; simp)).1 dv)
  -- the history's calls
  have hhist : ∀ n, (q n).started = true → ∃ cp cm cl, cp.length = j ∧
      ((behindNet (nusbEnv via (watched host) env) p devices w (ls n)).sys.shared.world.user o).2.2 = cp ++ cm ++ cl ∧
      (objAnswers (nusbObj (host o)) id noDeed (objNext (nusbObj (host o)) noDeed (w.user o).2 (q n).pre) (q n).mid).filterMap replied =
        ((nusbAnswers (host o) (w.user o).2.1 (cp ++ cm)).drop j).map (fun x => (.inl x.1, x.2)) ∧
      ((q n).post = [] → cl = []) ∧
      cm = (objAnswers (nusbObj (host o)) id noDeed (objNext (nusbObj (host o)) noDeed (w.user o).2 (q n).pre) (q n).mid).filterMap
        (fun a => a.1.getLeft?) := by
    intro n hs
    obtain ⟨cp, p1, p2⟩ := hpre n
    have hjn := hj n hs
    rw [p1] at hjn
    have hv := (hq n).1.value
    simp only [Phases.all, objNext_append] at hv
    generalize hs1 : objNext (nusbObj (host o)) noDeed (w.user o).2 (q n).pre = s1 at *
    obtain ⟨cm, m1, m2, m3, m4⟩ := nusb_run (host o) (q n).mid s1
    obtain ⟨cl, l1, _⟩ := nusb_run (host o) (q n).post (objNext (nusbObj (host o)) noDeed s1 (q n).mid)
    have hans : (objAnswers (nusbObj (host o)) id noDeed s1 (q n).mid).filterMap replied =
        ((nusbAnswers (host o) (w.user o).2.1 (cp ++ cm)).drop j).map (fun x => (.inl x.1, x.2)) := by
      rw [nusbAnswers_append, ← hjn, ← nusbAnswers_length (host o) cp (w.user o).2.1, List.drop_left, ← p2]
      exact m3
    by_cases hpost : (q n).post = []
    · refine ⟨cp, cm, [], hjn, ?_, hans, fun _ => rfl, m4⟩
      rw [hv, hpost, List.append_nil, ← p1, ← m1]; rfl
    · refine ⟨cp, cm, cl, hjn, ?_, hans, fun h => absurd h hpost, m4⟩
      rw [hv, l1, m1, p1]
  let R : Cmd → Option (NusbCall ⊕ HandlerId) := fun cmd => doesKey (nusbRequest via o dev cmd)
  let given : Driver → List ((NusbCall ⊕ HandlerId) × Nat × Bytes) := fun x =>
    x.done.filterMap (fun g => (R (g.urb.cmd x.devid g.seq)).map (fun k => (k, g.status, g.data)))
  have hret : ∀ n, (∀ e ∈ (L c n).map (·.2), Modest e.2.1) → (d n).phase ≠ .broken →
      given (d n) <+: ((L c n).map (·.2)).filterMap (loggedFor R) := by
    intro n hm hp
    obtain ⟨_, _, h3, _⟩ := C92_safe _ _ p devices w e c busid devid d ha _ hx n hm
    obtain ⟨_, h4⟩ := h3 hp
    obtain ⟨_, hdev⟩ := host_ids ha n
    obtain ⟨t, ht⟩ := h4
    have : given (d n) = ((d n).done.map (fun g => (g.urb.cmd devid g.seq, g.status, g.data))).filterMap
        (fun x => (R x.1).map (fun k => (k, x.2))) := by
      show (d n).done.filterMap _ = _
      rw [hdev, List.filterMap_map]
      rfl
    refine ⟨t.filterMap (fun x => (R x.1).map (fun k => (k, x.2))), ?_⟩
    rw [this, ← List.filterMap_append, ht, List.filterMap_filterMap]
    rfl
  have hleft : ∀ x : Driver, nusbReturned via o dev x = (given x).filterMap (fun a => a.1.getLeft?.map (fun c => (c, a.2))) := by
    intro x
    show _ = (x.done.filterMap _).filterMap _
    unfold nusbReturned
    rw [List.filterMap_filterMap]
    congr 1
    funext g
    rw [called_key]
    show _ = ((R _).map _).bind _
    cases hR : R (g.urb.cmd x.devid g.seq) with
    | none => rw [show doesKey (nusbRequest via o dev (g.urb.cmd x.devid g.seq)) = none from hR]; rfl
    | some k => rw [show doesKey (nusbRequest via o dev (g.urb.cmd x.devid g.seq)) = some k from hR]; rfl
  have hlefts : ∀ l : List (NusbCall × Nat × Bytes), (l.map (fun x => ((.inl x.1 : NusbCall ⊕ HandlerId), x.2))).filterMap
      (fun a => a.1.getLeft?.map (fun c => (c, a.2))) = l := by
    intro l
    rw [List.filterMap_map]
    exact List.filterMap_some
  -- what was given back, as the answers of the device
  have hgiven : ∀ n, (∀ e ∈ (L c n).map (·.2), Modest e.2.1) → (d n).phase ≠ .broken →
      given (d n) <+: ((nusbAnswers (host o) (w.user o).2.1 (nusbMade (e.state n) o)).drop j).map (fun x => (.inl x.1, x.2)) := by
    intro n hm hp
    have hcalls := made_behind hl hb (hf n).1.inv (hD.untouched n)
    cases hs : (q n).started with
    | false =>
      have hna : (d n).phase ≠ .attached := fun h => by rw [(hatt n hm h).1] at hs; cases hs
      have hdone : (d n).done = [] := by
        have hst := (host_inv ha hx n hm).1.state
        cases hph : (d n).phase with
        | importing => rw [hph] at hst; exact hst.2.2.2.1
        | refused => rw [hph] at hst; exact hst.2.2.2.2.1
        | attached => exact absurd hph hna
        | broken => exact absurd hph hp
      simp [given, hdone]
    | true =>
      obtain ⟨cp, cm, cl, g1, g2, g3, g4, g5⟩ := hhist n hs
      rw [g2] at hcalls
      obtain ⟨_, e0, rest', dv, h1, h2, ⟨last, _, h3⟩, h4⟩ := (hq n).1.busy hs
      rw [onNusb_reached] at h3 h4
      have hlog : ((L c n).map (·.2)).filterMap (loggedFor R) = rest'.filterMap (fun e => loggedFor R e.2) := by
        rw [List.filterMap_map, h1, List.filterMap_cons_none]
        · rfl
        · obtain ⟨a, cm, rp, by'⟩ := e0
          dsimp only at h2
          subst h2
          simp only [Function.comp, loggedFor]
          cases cm <;> rfl
      refine (hret n hm hp).trans ?_
      rw [hlog]
      refine (List.prefix_append _ last).trans ?_
      rw [← h3, g3]
      refine List.IsPrefix.map _ ?_
      exact (prefix_drop (nusbAnswers_prefix (host o) (List.prefix_append _ cl) _) j).trans
        (prefix_drop (nusbAnswers_prefix (host o) hcalls _) j)
  have hnever : ∀ n, (∀ e ∈ (L c n).map (·.2), Modest e.2.1) → (d n).phase ≠ .broken →
      ∀ g ∈ (d n).done, ¬ (nusbRequest via o dev (g.urb.cmd (d n).devid g.seq)).Crashes := by
    intro n hm hp g hg hcr
    obtain ⟨h, hk⟩ := (crashes_key _).1 hcr
    have : ((.inr h, g.status, g.data) : (NusbCall ⊕ HandlerId) × Nat × Bytes) ∈ given (d n) :=
      List.mem_filterMap.mpr ⟨g, hg, by show (doesKey _).map _ = _; rw [hk]; rfl⟩
    obtain ⟨x, _, hx⟩ := List.mem_map.mp ((hgiven n hm hp).subset this)
    cases hx
  refine ⟨fun n => (L c n).map (·.2), j, hx, hj0, fun n hm hp => ⟨?_, hnever n hm hp, fun hph => ?_, fun hph hidle hfree hrun => ?_⟩, ?_⟩
  · obtain ⟨t, ht⟩ := hgiven n hm hp
    rw [hleft, ← hlefts (List.drop j _), ← ht, List.filterMap_append]
    exact List.prefix_append _ _
  · have hcalls := made_behind hl hb (hf n).1.inv (hD.untouched n)
    obtain ⟨cp, cm, cl, g1, g2, _⟩ := hhist n (hatt n hm hph).1
    rw [g2] at hcalls
    have := hcalls.length_le
    rw [List.append_assoc, List.length_append, g1] at this
    omega
  · have hs := (hatt n hm hph).1
    obtain ⟨cp, cm, cl, g1, g2, g3, g4, g5⟩ := hhist n hs
    obtain ⟨_, e0, rest', dv, h1, h2, _, h4⟩ := (hq n).1.busy hs
    rw [onNusb_reached] at h4
    obtain ⟨x, hx1, hx2⟩ := hrun
    have hex := C81_explained _ _ hb' p devices w _ _ (hf n).1.inv.whole
    have hu := hex.1 o hfree
    have hc := hex.2.2.2.1 c hidle
    rw [hx1] at hc
    obtain ⟨_, k2, _, k4, k5⟩ := h4 _ hc hx2
    have hu' : nusbMade (e.state n) o = cp ++ cm ++ cl := by
      rw [← g2]
      exact congrArg (fun v : σ × (τ × List NusbCall) => v.2.2) hu
    have he0 : doesKey (nusbRequest via o dev e0.2.1) = none := by
      have hok := (hx.ok n e0.2 (by rw [h1]; simp)).1
      obtain ⟨a, cm, rp, by'⟩ := e0
      dsimp only at h2 hok
      subst h2
      cases cm <;> first | rfl | simp [Answers] at hok
    have hcm : cm = rest'.filterMap (fun e => (nusbRequest via o dev e.2.1).called) := by
      rw [g5]
      have := congrArg (fun l => l.filterMap Sum.getLeft?) k5
      rw [List.filterMap_map, List.filterMap_filterMap] at this
      refine this.trans ?_
      congr 1
      funext a
      rw [called_key]
    refine ⟨?_, fun g hg hcr => ?_⟩
    · rw [hu', g4 k2, List.append_nil, ← g1, List.drop_left, hcm]
      have hsaid : nusbWanted via o dev (d n) = (d n).said.filterMap (fun cmd => (nusbRequest via o dev cmd).called) :=
        (said_wanted (fun cmd => (nusbRequest via o dev cmd).called) (fun _ _ => rfl) (fun _ _ => rfl) ha n).symm
      rw [hsaid]
      obtain ⟨t, ht⟩ := hx.asked n
      rw [← ht, List.filterMap_append]
      refine List.IsPrefix.trans ?_ (List.prefix_append _ _)
      rw [h1]
      simp only [List.map_cons, List.map_map]
      rw [List.filterMap_cons_none (by rw [called_key, he0]; rfl), List.filterMap_map]
      exact List.prefix_refl _
    · obtain ⟨h, hk⟩ := (crashes_key _).1 hcr
      have hg : g ∈ (L c n).map (·.2) := hg
      rw [h1, List.map_cons] at hg
      rcases List.mem_cons.mp hg with rfl | hg
      · rw [he0] at hk; cases hk
      · obtain ⟨g', hg', rfl⟩ := List.mem_map.mp hg
        have hmem : (.inr h : NusbCall ⊕ HandlerId) ∈ rest'.filterMap (fun e => doesKey (nusbRequest via o dev e.2.1)) :=
          List.mem_filterMap.mpr ⟨g', hg', hk⟩
        rw [← k5] at hmem
        obtain ⟨a, ha1, ha2⟩ := List.mem_map.mp hmem
        have := crash_panics (host o) _ _ a ha1 h ha2
        exact k4 a ha1 this
  · intro hr hfair hno hdel
    have hr' := nusb_returns via (watched host) code hr
    have live := fun n hacc => C92_returned _ _ p devices w e c busid devid d hb' hr' hfair hno ha hdel _ hx n (.inl hacc)
    refine ⟨fun n hacc => ?_, fun n hph ⟨g, hg, hcr⟩ => ?_⟩
    · obtain ⟨m, hm, alt⟩ := live n hacc
      refine ⟨m, hm, ?_⟩
      rcases alt with ⟨b1, b2, b3⟩ | bad
      rotate_left
      · exact .inr bad
      refine .inl ⟨b1, b2, ?_⟩
      have hid : (d n).devid = (d m).devid := by rw [(host_ids ha n).2, (host_ids ha m).2]
      have := wanted_given (fun cmd => (nusbRequest via o dev cmd).called) hid b3
      have heq : (nusbReturned via o dev (d m)).map (·.1) =
          (givenBy (fun cmd => (nusbRequest via o dev cmd).called) (d m)).map (·.1) := by
        unfold nusbReturned givenBy
        rw [List.map_filterMap, List.map_filterMap]
        congr 1
        funext g
        dsimp only
        cases (nusbRequest via o dev (g.urb.cmd (d m).devid g.seq)).called <;> rfl
      rw [heq]
      exact this
    · by_cases hmn : ∀ g ∈ (L c n).map (·.2), Modest g.2.1
      rotate_left
      · exact ⟨n, Nat.le_refl _, .inr (.inl (Classical.byContradiction fun hn => hmn fun e he => Classical.byContradiction fun h => hn ⟨e, he, h⟩))⟩
      obtain ⟨_, hgiv⟩ := hatt n hmn hph
      have hacc : (e.state n).front c = .accepted := answered_accepted hA (fun h => by
        obtain ⟨_, _, h1, _⟩ := hgiv
        rw [h] at h1; cases h1)
      obtain ⟨m, hm, alt⟩ := live n hacc
      by_cases hmm : ∀ g ∈ (L c m).map (·.2), Modest g.2.1
      rotate_left
      · exact ⟨m, hm, .inr (.inl (Classical.byContradiction fun hn => hmm fun e he => Classical.byContradiction fun h => hn ⟨e, he, h⟩))⟩
      refine ⟨m, hm, ?_⟩
      rcases alt with ⟨b1, b2, b3⟩ | bad
      · obtain ⟨x, hx1, hx2⟩ := List.mem_map.mp (b3.subset hg)
        have hid : (d n).devid = (d m).devid := by rw [(host_ids ha n).2, (host_ids ha m).2]
        refine absurd ?_ (hnever m hmm b2 x hx1)
        rw [← hid]
        rw [← hx2] at hcr
        exact hcr
      rcases bad with bad | bad | bad | ⟨y, hy, bad⟩
      · exact .inr (.inl bad)
      · exact .inr (.inr (.inl bad))
      · exact .inr (.inr (.inr (.inl bad)))
      rcases bad with bad | bad
      rotate_left
      · exact .inr (.inr (.inr (.inr ⟨y, hy, bad⟩)))
      refine .inl fun k hk => took_stays hb' hA ?_ hk
      have hgm : GivenBy dev (L c m) := by
        obtain ⟨g, l, h1, h2⟩ := hgiv
        obtain ⟨t, ht⟩ := hA.mono c hm
        exact ⟨g, l ++ t.map (·.2), by rw [← ht, List.map_append, h1]; rfl, h2⟩
      refine (over_settled (H := (· = c)) (busid := fun _ => busid) (devid := fun _ => devid) (d := fun _ => d) hb' hA
        (fun c' h => by subst h; exact ha) (fun _ _ => ⟨hD.named, hD.single⟩) rfl hgm hy (by rw [bad]; intro h; cases h)).resolve_left ?_
      rintro ⟨z, hz, _, h⟩
      rw [hy] at hz
      cases hz
      rw [bad] at h
      rcases h with h | ⟨_, h⟩ <;> cases h

end

/-! ## Two cases -/

namespace Samples

/-- A device with a device handler. -/
def devN : Device := { devA with deviceHandler := some 0 }

/-- All handlers of the device work on it. -/
def nusbBy : HandlerId → Option HandlerId
  | .iface 0 => some (.dev 0)
  | .iface 1 => some (.dev 0)
  | .dev 0 => some (.dev 0)
  | _ => none

def setupBytes (t r : UInt8) (len : UInt8) : Bytes := [t, r, 0, 0, 0, 0, len, 0]

/-- A class request to the first interface that reads, one that writes, a vendor request to the device, and the first one again. -/
def controls : List (UInt32 × Urb) :=
  [(8, ⟨true, 0, 0, 4, 0, 0, 0, setupBytes 0xA1 1 4, [], []⟩), (9, ⟨false, 0, 0, 3, 0, 0, 0, setupBytes 0x21 9 3, [5, 6, 7], []⟩),
   (10, ⟨true, 0, 0, 8, 0, 0, 0, setupBytes 0xC0 2 8, [], []⟩),
   (11, ⟨true, 0, 0, 4, 0, 0, 0, setupBytes 0xA1 1 4, [], []⟩)]

/-- A class request, and then a bulk read. -/
def doom : List (UInt32 × Urb) :=
  [(8, ⟨true, 0, 0, 4, 0, 0, 0, setupBytes 0xA1 1 4, [], []⟩), (9, ⟨true, 1, 0, 4, 0, 0, 0, [0, 0, 0, 0, 0, 0, 0, 0], [], []⟩)]

theorem controls_wf : ∀ q ∈ controls, WellFormed true (q.2.cmd 65538 q.1) := by
  intro q hq
  simp only [controls, List.mem_cons, List.not_mem_nil, or_false] at hq
  rcases hq with rfl | rfl | rfl | rfl <;> exact ⟨rfl, fun _ => (by decide), rfl, rfl, rfl⟩

theorem doom_wf : ∀ q ∈ doom, WellFormed true (q.2.cmd 65538 q.1) := by
  intro q hq
  simp only [doom, List.mem_cons, List.not_mem_nil, or_false] at hq
  rcases hq with rfl | rfl <;> exact ⟨rfl, fun _ => (by decide), rfl, rfl, rfl⟩

abbrev nusbSteps : Code (Keyboard × (Nat × List NusbCall)) := nusbCode nusbBy (watched fun _ => sampleNusb) (oneShot keyboardObj)
abbrev nusbWhole : Env (HandlerId → Keyboard × (Nat × List NusbCall)) := nusbEnv nusbBy (watched fun _ => sampleNusb) (oneEnv keyboardObj)
def nusbWorld : World (HandlerId → Keyboard × (Nat × List NusbCall)) :=
  ⟨fun _ => (Keyboard.new, (20, [])), fun _ => false, fun _ => false⟩

theorem sampleHonest : sampleNusb.Honest := by
  intro h c n t l f e
  cases h <;> simp only [NusbHost.at, sampleNusb, Option.some.injEq, Prod.mk.injEq] at e <;> omega

/-- The host does all this. -/
theorem askedNusb (qs : List (UInt32 × Urb)) (hc : Computed nusbWhole nusbWorld (.arrive []) devN qs) :
    ∃ (e : MachineExec nusbSteps nusbWhole dev (Machine.init nusbSteps [devN] nusbWorld)) (d : Nat → Driver) (T : Nat → Nat) (n0 n1 n2 : Nat),
    Staged e d T (padded devN.busId) 65538 (polls (.arrive []) qs) (poller nusbWhole nusbWorld (.arrive []) devN qs) ∧
    Asked e d (.arrive []) qs n0 n1 n2 ∧ SharesNusb e [devN] devN (.dev 0) (padded devN.busId) := by
  have hb := nusb_behaves nusbBy (watched fun _ => sampleNusb) _ _ (oneShot_behaves keyboardObj)
  obtain ⟨e, d, T, h, hA⟩ := asked (w := nusbWorld) hb (nusb_returns nusbBy _ _ (oneShot_returns keyboardObj)) hc
  have hu := h.unused hb (fun i o v hi => by
    match i, hi with
    | 0, hi => cases hi
    | 1, hi => cases hi
    | 2, hi => cases hi
    | i + 3, hi => rw [polls_rest] at hi; cases hs : qs[i]? <;> rw [hs] at hi <;> cases hi)
  exact ⟨e, d, T, _, _, _, h, hA, hA.sole.named, fun n x hx _ _ _ => List.mem_singleton.mp (hA.given n ▸ hx), hA.sole.single,
    fun n a e0 => hu n a _ e0⟩

/-- C102 on it: all hypotheses are met, and in the end the host has been given back what nusb said to the four calls. -/
example : ∃ (e : MachineExec nusbSteps nusbWhole dev (Machine.init nusbSteps [devN] nusbWorld)) (d : Nat → Driver) (n1 n2 : Nat),
    Behaves (oneShot keyboardObj) (oneEnv keyboardObj) ∧ sampleNusb.Honest ∧ Alongside e 0 busA 65538 d ∧
    SharesNusb e [devN] devN (.dev 0) busA ∧
    (nusbWorld.user (.dev 0)).2.2 = [] ∧ Lone e 0 ∧ Returns (oneShot keyboardObj) ∧ e.Fair ∧
    (∀ n t f i m k, (e.state n).whole.fine.cfg.flights t = some f → f.ev = .removeDevice i → f.code ≠ .lock .used m k) ∧
    Delivers e 0 d ∧
    nusbWanted nusbBy (.dev 0) devN (d n1) =
      [.controlIn (.iface 0) ⟨.cls, .interface, 1, 0, 0⟩ 4, .controlOut (.iface 0) ⟨.cls, .interface, 9, 0, 0⟩ [5, 6, 7],
       .controlIn (.dev 0) ⟨.vendor, .device, 2, 0, 0⟩ 8, .controlIn (.iface 0) ⟨.cls, .interface, 1, 0, 0⟩ 4] ∧
    ∀ n, n2 ≤ n → (d n).phase = .attached ∧ nusbReturned nusbBy (.dev 0) devN (d n) =
      [(.controlIn (.iface 0) ⟨.cls, .interface, 1, 0, 0⟩ 4, 0, [20]),
       (.controlOut (.iface 0) ⟨.cls, .interface, 9, 0, 0⟩ [5, 6, 7], 0, []),
       (.controlIn (.dev 0) ⟨.vendor, .device, 2, 0, 0⟩ 8, 0, [7, 7]),
       (.controlIn (.iface 0) ⟨.cls, .interface, 1, 0, 0⟩ 4, 0, [24])] := by
  obtain ⟨e, d, T, n0, n1, n2, _, h, hS⟩ := askedNusb controls
    ⟨controls_wf, by decide, by decide +kernel, by decide +kernel, by decide +kernel, by decide +kernel, by decide +kernel, by decide +kernel,
      by decide +kernel, rfl⟩
  refine ⟨e, d, n1, n2, oneShot_behaves _, sampleHonest, h.alongside, hS, rfl, h.lone, oneShot_returns _, h.fair, h.noRemovals,
    h.delivers, ?_, fun n hn => ?_⟩
  · rw [h.at1]; decide +kernel
  · rw [h.at2 n hn]; decide +kernel

/-- C102 on a host that asks for a bulk transfer: all hypotheses are met; the transfer before is given back, the bulk transfer never is, and
the server has no device any more. -/
example : ∃ (e : MachineExec nusbSteps nusbWhole dev (Machine.init nusbSteps [devN] nusbWorld)) (d : Nat → Driver) (n1 n2 n3 : Nat),
    Behaves (oneShot keyboardObj) (oneEnv keyboardObj) ∧ sampleNusb.Honest ∧ Alongside e 0 busA 65538 d ∧
    SharesNusb e [devN] devN (.dev 0) busA ∧
    (nusbWorld.user (.dev 0)).2.2 = [] ∧ Lone e 0 ∧ Returns (oneShot keyboardObj) ∧ e.Fair ∧
    (∀ n t f i m k, (e.state n).whole.fine.cfg.flights t = some f → f.ev = .removeDevice i → f.code ≠ .lock .used m k) ∧
    Delivers e 0 d ∧ (d n1).phase = .attached ∧
    (∃ g ∈ (d n1).issued, (nusbRequest nusbBy (.dev 0) devN (g.2.cmd (d n1).devid g.1)).Crashes) ∧
    (∀ n, n2 ≤ n → (d n).phase = .attached ∧ (d n).pending.map (·.1) = [9] ∧ nusbReturned nusbBy (.dev 0) devN (d n) =
      [(.controlIn (.iface 0) ⟨.cls, .interface, 1, 0, 0⟩ 4, 0, [20])]) ∧
    TookAlong (e.state n3) 0 devN := by
  obtain ⟨e, d, T, n0, n1, n2, hT, h, hS⟩ := askedNusb doom
    ⟨doom_wf, by decide, by decide +kernel, by decide +kernel, by decide +kernel, by decide +kernel, by decide +kernel, by decide +kernel,
      by decide +kernel, rfl⟩
  refine ⟨e, d, n1, n2, T 5, oneShot_behaves _, sampleHonest, h.alongside, hS, rfl, h.lone, oneShot_returns _, h.fair, h.noRemovals,
    h.delivers, ?_, ?_, fun n hn => ?_, ?_⟩
  · rw [h.at1]; decide +kernel
  · rw [h.at1]
    have h1 : (poller2 nusbWhole nusbWorld (.arrive []) devN doom).issued = doom := by decide +kernel
    have h2 : (poller2 nusbWhole nusbWorld (.arrive []) devN doom).devid = 65538 := by decide +kernel
    rw [h1, h2]
    exact ⟨_, List.mem_cons_of_mem _ List.mem_cons_self, .iface 0, rfl⟩
  · rw [h.at2 n hn]; decide +kernel
  · have r := hT.rest 5 (Nat.le_refl _)
    have took : ((pollNet nusbWhole nusbWorld (.arrive []) devN doom 5).sys.conns 0).any
        (fun x => decide (x.status ≠ .running ∧ x.current = some devN.busId)) = true := by decide +kernel
    rw [pollNet, ← r] at took
    cases hc : (e.state (T 5)).whole.fine.cfg.conns 0 with
    | none => simp [restOf, Whole.tcp, hc] at took
    | some x =>
      refine ⟨x, hc, ?_⟩
      simpa [restOf, Whole.tcp, hc] using took

end Samples

end Usbip
