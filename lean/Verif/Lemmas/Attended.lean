import Verif.Lemmas.Feeds
/-! Helper lemmas: a host reads what is put into an object. -/

namespace Usbip
open Spec

theorem next_phase {d d' : Driver} (hn : d.next = some d') (h : d.phase = .attached) : d'.phase = .attached ∨ d'.phase = .broken := by
  simp only [Driver.next, h, Driver.submitted, Driver.unlinked] at hn
  repeat' split at hn
  all_goals first
    | (cases hn; done)
    | (cases hn; exact .inr rfl)
    | (cases hn; exact .inl h)
    | (cases hn; dsimp only; repeat' split) <;> first | exact .inl h | exact .inl rfl

theorem pump_phase (n : Nat) : ∀ {d : Driver}, (d.phase = .broken → (d.pump n).phase = .broken) ∧
    (d.phase = .attached → (d.pump n).phase = .attached ∨ (d.pump n).phase = .broken) := by
  induction n with
  | zero => intro d; exact ⟨id, .inl⟩
  | succ n ih =>
    intro d
    unfold Driver.pump
    cases hn : d.next with
    | none => exact ⟨id, .inl⟩
    | some d' =>
      refine ⟨fun h => ?_, fun h => ?_⟩
      · simp only [Driver.next, h] at hn; cases hn
      · rcases next_phase hn h with h' | h'
        · exact ih.2 h'
        · exact .inr (ih.1 h')

theorem moves_phase {d d' : Driver} (hm : d.Moves d') : (d.phase = .broken → d'.phase = .broken) ∧
    (d.phase = .attached → d'.phase = .attached ∨ d'.phase = .broken) := by
  induction hm with
  | refl => exact ⟨id, .inl⟩
  | submit h seq u hp hf hw ih => exact ih
  | unlink h seq target hp hf ht ih => exact ih
  | @hear d1 h bs ih =>
    have hp := pump_phase (d1.rx.length + bs.length + 1) (d := { d1 with rx := d1.rx ++ bs, heard := d1.heard ++ bs })
    refine ⟨fun h => hp.1 (ih.1 h), fun h => ?_⟩
    rcases ih.2 h with h' | h'
    · exact hp.2 h'
    · exact .inr (hp.1 h')

/-- The calls of interface handler `h`. -/
def ofIface (h : Nat) : HCall → Option (Endpoint × SetupPacket)
  | .iface h' _ ep _ st _ => if h' = h then some (ep, st) else none
  | .dev .. => none

theorem ofIface_target {h : Nat} {call : HCall} {k : Endpoint × SetupPacket} (hk : ofIface h call = some k) :
    call.target = .iface h := by
  cases call with
  | dev => cases hk
  | iface h' i ep l st d =>
    simp only [ofIface] at hk
    split at hk
    · rename_i e; rw [e]; rfl
    · cases hk

theorem ofIface_reached (dev : Device) (h : Nat) : reachedBy dev (ofIface h) Prod.fst = reached dev h := by
  funext cmd
  cases cmd with
  | submit hd f len sf np iv setup data iso =>
    simp only [reachedBy, reached]
    cases Job.call ⟨dev, hd, len, setup, data⟩ with
    | none => rfl
    | some call =>
      cases call with
      | dev => rfl
      | iface h' i ep l st d =>
        simp only [Option.bind_some, ofIface]
        split <;> rfl
  | _ => rfl

section
variable {τ α β γ : Type} {code : Code τ} {env : Env (HandlerId → τ)} {p : Profile} {h : Nat} {view : τ → β}
  {obj : Endpoint → SetupPacket → β → HRes × β} {act : α → β → β} {devices : List Device} {dev : Device}
  {w : World (HandlerId → τ)}
  {e : MachineExec code env p (Machine.init code devices w)} {c : Nat} {busid : Bytes} {devid : UInt32} {d : Nat → Driver}
  {acts : Nat → List α} {rest : β → List γ} {item : α → List γ} {chunk : Bytes → List γ} {good : Endpoint → Bool}

theorem _root_.Usbip.Spec.Serves.works (hS : Serves code env h view obj) :
    Works env (code.obj (.iface h)) view (ofIface h) (plain obj) := by
  refine ⟨fun call k u hk => ?_, fun call u hk => congrArg view (hS.others call u fun ht => ?_)⟩
  · cases call with
    | dev => cases hk
    | iface h' i ep l st d =>
      simp only [ofIface] at hk
      split at hk
      · rename_i e
        subst e
        cases hk
        exact hS.call i ep l st d u
      · cases hk
  · cases call with
    | dev => cases ht
    | iface h' i ep l st d =>
      cases ht
      simp [ofIface] at hk

theorem phase_later (ha : Alongside e c busid devid d) {n m : Nat} (hnm : n ≤ m) :
    ((d n).phase = .broken → (d m).phase = .broken) ∧
    ((d n).phase = .attached → (d m).phase = .attached ∨ (d m).phase = .broken) := by
  induction m with
  | zero => obtain rfl : n = 0 := by omega
            exact ⟨id, .inl⟩
  | succ m ih =>
    by_cases e : n = m + 1
    · subst e; exact ⟨id, .inl⟩
    · obtain ⟨h1, h2⟩ := ih (by omega)
      obtain ⟨g1, g2⟩ := moves_phase (ha.moves m)
      refine ⟨fun h => g1 (h1 h), fun h => ?_⟩
      rcases h2 h with h' | h'
      · exact g2 h'
      · exact .inr (g1 h')

/-- What was put into the object: taken out before client `c` had it, or not. -/
theorem life_items (hF : Feeds obj act rest item chunk good) {b0 : β} (h0 : rest b0 = []) {N : Net (HandlerId → τ)}
    {L : List (Bytes × Handled)} {A : List α} {q : Phases α (Endpoint × SetupPacket)} (hl : Life (code.obj (.iface h)) (ofIface h) Prod.fst view (plain obj) act devices dev c b0 N L A q) :
    takenOut chunk good (repliesOf obj act b0 q.pre) ++ ((rest (objNext (plain obj) act b0 q.pre) ++ (appsOf q.mid).flatMap item) ++
      (appsOf q.post).flatMap item) = A.flatMap item := by
  have := hF.run q.pre b0
  rw [h0, List.nil_append] at this
  rw [← List.append_assoc, ← List.append_assoc, this, ← hl.apps]
  simp only [Phases.all, appsOf_append, List.flatMap_append]

theorem wanted_given {ι : Type} (r : Cmd → Option ι) {x y : Driver} (hdev : x.devid = y.devid)
    (hi : x.issued <+: y.done.map (fun g => (g.seq, g.urb))) : askedBy r x <+: (givenBy r y).map (·.1) := by
  obtain ⟨t, ht⟩ := hi
  have : (givenBy r y).map (·.1) = (y.done.map (fun g => (g.seq, g.urb))).filterMap (fun g => r (g.2.cmd y.devid g.1)) := by
    unfold givenBy
    rw [List.map_filterMap, List.filterMap_map]
    congr 1
    funext g
    dsimp only [Function.comp]
    cases r (g.urb.cmd y.devid g.seq) <;> rfl
  rw [this, ← ht, List.filterMap_append]
  unfold askedBy
  rw [hdev]
  exact List.prefix_append _ _

theorem moves_wanted {ι : Type} (r : Cmd → Option ι) (hr : ∀ hd n, r (.unlink hd n) = none) {x y : Driver} (hm : x.Moves y)
    (hx : x.said.filterMap (r) = askedBy r x) : y.said.filterMap (r) = askedBy r y := by
  induction hm with
  | refl => exact hx
  | submit hm seq u hp hf hw ih =>
    simp only [List.filterMap_append, askedBy] at ih ⊢
    rw [ih]
    rfl
  | unlink hm seq target hp hf ht ih =>
    simp only [List.filterMap_append, askedBy] at ih ⊢
    rw [ih, unlinkCmd, List.filterMap_cons_none (hr _ _)]
    exact List.append_nil _
  | @hear y' hm bs ih =>
    obtain ⟨g1, _, _, g4, g5⟩ := hear_ghosts y' bs
    unfold askedBy at ih ⊢
    rw [g1, g4, g5, ih]

/-- What was asked for, in the requests. -/
theorem said_wanted {ι : Type} (r : Cmd → Option ι) (hr0 : ∀ st b, r (.reqImport st b) = none)
    (hr : ∀ hd n, r (.unlink hd n) = none) (ha : Alongside e c busid devid d) (n : Nat) :
    (d n).said.filterMap (r) = askedBy r (d n) := by
  induction n with
  | zero => rw [ha.start]; exact List.filterMap_cons_none (hr0 _ _)
  | succ n ih => exact moves_wanted r hr (ha.moves n) ih

theorem logged_asked {ι : Type} (r : Cmd → Option ι) (l : List Handled) : ((l.filterMap (loggedFor r)).map (·.1)).Sublist ((l.map (·.1)).filterMap (r)) := by
  induction l with
  | nil => exact .slnil
  | cons g l ih =>
    have hg : loggedFor r g = none ∨ ∃ ep y, loggedFor r g = some (ep, y) ∧ r g.1 = some ep := by
      obtain ⟨cmd, resp, b⟩ := g
      unfold loggedFor
      cases ho : outcome (cmd, resp, b) with
      | none => exact .inl rfl
      | some y =>
        have : y.1 = cmd := by
          cases cmd <;> cases resp <;> simp only [outcome] at ho <;> cases ho
          rfl
        cases hr : r y.1 with
        | none => left; simp [hr]
        | some ep => right; exact ⟨ep, y.2, by simp [hr], by rw [← this]; exact hr⟩
    rcases hg with hg | ⟨ep, y, hg, hr⟩
    · rw [List.filterMap_cons_none hg, List.map_cons]
      cases hr : r g.1 with
      | none => rw [List.filterMap_cons_none hr]; exact ih
      | some ep => rw [List.filterMap_cons_some hr]; exact ih.cons _
    · rw [List.filterMap_cons_some hg, List.map_cons, List.map_cons, List.filterMap_cons_some hr]
      exact ih.cons_cons _

theorem not_accepted (hb : Behaves code env) {ls : List (MachineLabel (HandlerId → τ))} {s : Machine code}
    (hK : KInv code env p devices w ls s) {c' : Nat} (h : s.front c' ≠ .accepted) :
    (behindNet env p devices w ls).sys.conns c' = none := by
  have h1 := hK.conn c' h
  obtain ⟨_, w', _, hr⟩ := whole_reach hb hK.whole
  have hidle : s.whole.fine.cfg.idle c' := by
    intro t g hg ho
    obtain ⟨x, hx, _⟩ := (TInv.reach hr).owned (t := t) (f := g) hg ho
    have hx' : s.whole.fine.cfg.conns c' = some x := hx
    rw [h1] at hx'; cases hx'
  have := (C81_explained code env hb p devices w _ _ hK.whole).2.2.2.1 c' hidle
  rw [h1] at this
  exact this

theorem attended_told (hb : Behaves code env) (ha : Alongside e c busid devid d) (hS : Serves code env h view obj)
    (hU : Uses e (code.obj (.iface h)) view act acts) (hD : Sole e devices dev h busid)
    (hF : Feeds obj act rest item chunk good) (h0 : rest (view (w.user (code.obj (.iface h)))) = [])
    (f : Nat → List (MachineLabel (HandlerId → τ)) × List (Bytes × Handled))
    (hf : ∀ n, Told e c n (f n).1 (f n).2 ∧ (f n).2 <+: (f (n + 1)).2) (hf0 : (f 0).1 = [])
    (hf1 : ∀ n, (f (n + 1)).1 = (f n).1 ++ (e.label n).toList) :
    ∃ j, (Lone e c → j = 0) ∧
      (∀ n, (∀ e ∈ (f n).2.map (·.2), Modest e.2.1) → (d n).phase ≠ .broken →
        ((d n).phase = .attached → j ≤ ((actsBy acts n).flatMap item).length) ∧
        readBack chunk good dev h (d n) <+: ((actsBy acts n).flatMap item).drop j) ∧
      (Returns code → e.Fair →
        (∀ n t f i m k, (e.state n).whole.fine.cfg.flights t = some f → f.ev = .removeDevice i → f.code ≠ .lock .used m k) →
        Delivers e c d →
        ∀ n0 n1, n0 ≤ n1 → (d n0).phase = .attached →
        (wanted dev h (d n0)).countP good + ((actsBy acts n0).flatMap item).length + 2 ≤ (wanted dev h (d n1)).countP good →
        ∃ m, n1 ≤ m ∧ (((actsBy acts n0).flatMap item).drop j <+: readBack chunk good dev h (d m) ∨
          (∃ e ∈ (f m).2.map (·.2), ¬ Modest e.2.1) ∨ Overrun ((f m).2.map (·.2)) (d m).heard ∨ (e.state m).whole.ended c ≠ none ∨
          ∃ y, (e.state m).whole.fine.cfg.conns c = some y ∧ (y.status = .panicked ∨ e.Faulted c m y))) := by
  obtain ⟨q, hq⟩ := exists_life (tag := Prod.fst) hb ha hS.works hU hD.named
    (fun n d hd call k hk ht => hD.only n d hd (by rw [← ofIface_target hk]; exact ht)) hD.single f hf hf0 hf1
  have hx := exchanged_told hb ha f hf
  have hthen : ∀ {n m}, n ≤ m → (q n).Then (q m) := fun h => then_le (fun n => (hq n).2) h
  generalize hb0 : view (w.user (code.obj (.iface h))) = b0 at hq h0
  obtain ⟨j, hj, hj0⟩ : ∃ j, (∀ n, (q n).started = true → (takenOut chunk good (repliesOf obj act b0 (q n).pre)).length = j) ∧
      (Lone e c → j = 0) := by
    by_cases hs : ∃ n, (q n).started = true
    rotate_left
    · exact ⟨0, fun n h => absurd ⟨n, h⟩ hs, fun _ => rfl⟩
    · obtain ⟨n, hn⟩ := hs
      refine ⟨(takenOut chunk good (repliesOf obj act b0 (q n).pre)).length, fun m hm => ?_, fun hlone => ?_⟩
      · rcases Nat.le_total n m with h | h
        · rw [((hthen h).started hn).2]
        · rw [((hthen h).started hm).2]
      · have hnone : ∀ c', c' ≠ c → (behindNet env p devices w (f n).1).sys.conns c' = none :=
          fun c' hc' => not_accepted hb (hf n).1.inv (hlone n c' hc')
        have := (hq n).1.alone hnone b0
        simp [repliesOf, this, takenOut]
  have hlog' : ∀ n, (q n).started = true → ∃ last, last.length ≤ 1 ∧
      repliesOf obj act (objNext (plain obj) act b0 (q n).pre) (q n).mid = ((f n).2.map (·.2)).filterMap (loggedFor (reached dev h)) ++ last := by
    intro n hs
    obtain ⟨_, e0, rest', dv, h1, h2, ⟨last, hl1, h3⟩, _⟩ := (hq n).1.busy hs
    refine ⟨last, hl1, ?_⟩
    rw [List.filterMap_map, h1, List.filterMap_cons_none]
    · rw [ofIface_reached] at h3; exact h3
    · obtain ⟨a, cm, rp, by'⟩ := e0
      dsimp only at h2
      subst h2
      simp only [Function.comp, loggedFor]
      cases cm <;> rfl
  have hlog : ∀ n, (q n).started = true → ((f n).2.map (·.2)).filterMap (loggedFor (reached dev h)) <+:
      repliesOf obj act (objNext (plain obj) act b0 (q n).pre) (q n).mid := by
    intro n hs
    obtain ⟨last, _, h⟩ := hlog' n hs
    rw [h]; exact List.prefix_append _ _
  have hatt : ∀ n, (∀ e ∈ (f n).2.map (·.2), Modest e.2.1) → (d n).phase = .attached → (q n).started = true := by
    intro n hm hp
    obtain ⟨e0, rest', dv, h1, _, h3, _⟩ :=
      (C92_safe code env p devices w e c busid devid d ha _ hx n hm).2.2.2.1 hp
    cases hs : (q n).started with
    | true => rfl
    | false =>
      obtain ⟨_, _, h4, _⟩ := (hq n).1.idle hs
      cases hL : (f n).2 with
      | nil => rw [hL] at h1; cases h1
      | cons e1 L' =>
        rw [hL] at h1
        simp only [List.map_cons, List.cons.injEq] at h1
        exact absurd (by rw [h1.1]; exact h3) ((h4 e1 (by rw [hL]; simp)).1 dv)
  refine ⟨j, hj0, ?_, ?_⟩
  · intro n hm hp
    cases hs : (q n).started with
    | true =>
      have hit := life_items hF h0 (hq n).1
      obtain ⟨gb, g1, g2⟩ := givenBack_log (dev := dev) (h := h) ha hx n hm hp
      rw [readBack_taken g2]
      have h1 : takenOut chunk good gb <+: rest (objNext (plain obj) act b0 (q n).pre) ++ (appsOf (q n).mid).flatMap item := by
        refine (takenOut_prefix (g1.trans (hlog n hs))).trans ?_
        rw [← hF.run]
        exact List.prefix_append _ _
      refine ⟨fun _ => ?_, ?_⟩
      · rw [← hit, ← hj n hs, List.length_append]; omega
      · rw [← hit, ← hj n hs, List.drop_left]
        exact h1.trans (List.prefix_append _ _)
    | false =>
      have hna : (d n).phase ≠ .attached := fun h => by rw [hatt n hm h] at hs; cases hs
      refine ⟨fun h => absurd h hna, ?_⟩
      have hdone : (d n).done = [] := by
        have hst := (host_inv ha hx n hm).1.state
        cases hph : (d n).phase with
        | importing => rw [hph] at hst; exact hst.2.2.2.1
        | refused => rw [hph] at hst; exact hst.2.2.2.2.1
        | attached => exact absurd hph hna
        | broken => exact absurd hph hp
      simp [readBack, givenBack, hdone]
  · intro hret hfair hno hl m0 n1 hn1 hatt0 hcount
    by_cases hmod0 : ∀ e ∈ (f m0).2.map (·.2), Modest e.2.1
    rotate_left
    · refine ⟨n1, Nat.le_refl _, .inr (.inl ?_)⟩
      obtain ⟨g, h1, h2⟩ : ∃ e ∈ (f m0).2.map (·.2), ¬ Modest e.2.1 :=
        Classical.byContradiction fun hn => hmod0 fun e he => Classical.byContradiction fun h => hn ⟨e, he, h⟩
      exact ⟨g, (hx.mono hn1).subset h1, h2⟩
    have hs0 := hatt m0 hmod0 hatt0
    have hacc : (e.state m0).front c = .accepted := by
      apply Classical.byContradiction
      intro hn
      exact ((hq m0).1.busy hs0).1 (not_accepted hb (hf m0).1.inv hn)
    have hpolls : goodOps good (q m0).mid ≤ (wanted dev h (d m0)).countP good + 1 := by
      obtain ⟨last, hl1, h1⟩ := hlog' m0 hs0
      have h2 := hF.replies (q m0).mid (objNext (plain obj) act b0 (q m0).pre)
      rw [h1, List.countP_append] at h2
      have h3 := (logged_asked (reached dev h) ((f m0).2.map (·.2))).countP_le (p := good)
      obtain ⟨t, ht⟩ := hx.asked m0
      have h4 : (wanted dev h (d m0)).countP good =
          ((((f m0).2.map (·.2)).map (·.1)).filterMap (reached dev h)).countP good + (t.filterMap (reached dev h)).countP good := by
        rw [show wanted dev h (d m0) = askedBy (reached dev h) (d m0) from rfl,
          ← said_wanted (reached dev h) (fun _ _ => rfl) (fun _ _ => rfl) ha m0, ← ht, List.filterMap_append, List.countP_append]
      have h5 : last.countP (fun r => good r.1) ≤ last.length := List.countP_le_length
      rw [List.countP_map] at h3
      have h6 : (((f m0).2.map (·.2)).filterMap (loggedFor (reached dev h))).countP (good ∘ fun x => x.1) =
        (((f m0).2.map (·.2)).filterMap (loggedFor (reached dev h))).countP (fun r => good r.1) := rfl
      omega
    obtain ⟨m, hm, alt⟩ := C92_returned code env p devices w e c busid devid d hb hret hfair hno ha hl _ hx n1
      (.inl (accepted_stays hb hacc hn1))
    rcases alt with ⟨_, b2, b3⟩ | bad
    rotate_left
    · exact ⟨m, by omega, .inr bad⟩
    refine ⟨m, by omega, ?_⟩
    by_cases hmod : ∀ e ∈ (f m).2.map (·.2), Modest e.2.1
    rotate_left
    · exact .inr (.inl (Classical.byContradiction fun hn => hmod fun e he =>
        Classical.byContradiction fun h => hn ⟨e, he, h⟩))
    left
    obtain ⟨gb, g1, g2⟩ := givenBack_log (dev := dev) (h := h) ha hx m hmod b2
    have hth := hthen (show m0 ≤ m by omega)
    obtain ⟨hsm, hpre⟩ := hth.started hs0
    have hgb := g1.trans (hlog m hsm)
    rw [hpre] at hgb
    have hwant : wanted dev h (d n1) <+: gb.map (·.1) := by
      have hid : (d n1).devid = (d m).devid := by rw [(host_ids ha n1).2, (host_ids ha m).2]
      have : wanted dev h (d n1) <+: (givenBack dev h (d m)).map (·.1) := wanted_given (reached dev h) hid b3
      rw [g2, List.map_map] at this
      exact this
    have hgood : goodOps good (q m0).mid + ((actsBy acts m0).flatMap item).length < gb.countP (fun r => good r.1) := by
      have := hwant.sublist.countP_le (p := good)
      rw [List.countP_map] at this
      have h2 : gb.countP (good ∘ fun r => r.1) = gb.countP (fun r => good r.1) := rfl
      rw [h2] at this
      omega
    have hit := life_items hF h0 (hq m0).1
    have hpost : (q m0).post = [] := by
      apply Classical.byContradiction
      intro hne
      have h1 := (hth.post hne).2
      rw [h1] at hgb
      have h2 := hgb.sublist.countP_le (p := fun r => good r.1)
      rw [hF.replies] at h2
      omega
    rw [hpost] at hit
    have hit' : takenOut chunk good (repliesOf obj act b0 (q m0).pre) ++ (rest (objNext (plain obj) act b0 (q m0).pre) ++
        (appsOf (q m0).mid).flatMap item) = (actsBy acts m0).flatMap item := by
      rw [← hit]; simp [appsOf]
    have hen := hF.enough hth.mid hgb (by
      have := congrArg List.length hit'
      rw [List.length_append] at this
      omega)
    rw [readBack_taken g2]
    refine List.IsPrefix.trans ?_ hen
    rw [← hit', ← hj m0 hs0, List.drop_left]
    exact List.prefix_refl _

theorem attended (hb : Behaves code env) (ha : Alongside e c busid devid d) (hS : Serves code env h view obj)
    (hU : Uses e (code.obj (.iface h)) view act acts) (hD : Sole e devices dev h busid)
    (hF : Feeds obj act rest item chunk good) (h0 : rest (view (w.user (code.obj (.iface h)))) = []) :
    ∃ log j, Exchanged e c d log ∧ (Lone e c → j = 0) ∧
      (∀ n, (∀ e ∈ log n, Modest e.2.1) → (d n).phase ≠ .broken →
        ((d n).phase = .attached → j ≤ ((actsBy acts n).flatMap item).length) ∧
        readBack chunk good dev h (d n) <+: ((actsBy acts n).flatMap item).drop j) ∧
      (Returns code → e.Fair →
        (∀ n t f i m k, (e.state n).whole.fine.cfg.flights t = some f → f.ev = .removeDevice i → f.code ≠ .lock .used m k) →
        Delivers e c d →
        ∀ n0 n1, n0 ≤ n1 → (d n0).phase = .attached →
        (wanted dev h (d n0)).countP good + ((actsBy acts n0).flatMap item).length + 2 ≤ (wanted dev h (d n1)).countP good →
        ∃ m, n1 ≤ m ∧ (((actsBy acts n0).flatMap item).drop j <+: readBack chunk good dev h (d m) ∨
          (∃ e ∈ log m, ¬ Modest e.2.1) ∨ Overrun (log m) (d m).heard ∨ (e.state m).whole.ended c ≠ none ∨
          ∃ y, (e.state m).whole.fine.cfg.conns c = some y ∧ (y.status = .panicked ∨ e.Faulted c m y))) := by
  obtain ⟨f, hf, hf0, hf1⟩ := exists_told hb e c
  obtain ⟨j, hj⟩ := attended_told hb ha hS hU hD hF h0 f hf hf0 hf1
  exact ⟨fun n => (f n).2.map (·.2), j, exchanged_told hb ha f hf, hj⟩

end

end Usbip
