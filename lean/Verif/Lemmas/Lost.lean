import Verif.Lemmas.Again
import Verif.Spec.Lost
/-! Helper lemmas: a device that was not given back. -/

namespace Usbip
open Spec

section
variable {σ : Type} {env : Env σ} {p : Profile} {devices : List Device} {dev : Device}

/-- Where the device is: whoever has it, or had it at the end, nobody else has, and it is not there for others. -/
structure Whereabouts (devices : List Device) (dev : Device) (N : Net σ) : Prop where
  stock : Stock devices dev N.sys.shared N.sys.conns
  one : ∀ c x, N.sys.conns c = some x → x.current = some dev.busId → dev ∈ devices ∧
    (∀ d ∈ N.sys.shared.available, d.busId ≠ dev.busId) ∧
    ∀ k y, k ≠ c → N.sys.conns k = some y → y.current ≠ some dev.busId

theorem Whereabouts.event {N : Net σ} (h : Whereabouts devices dev N) (ev : NetEvent σ) (hG' : Single dev (gave devices ev)) :
    Whereabouts (gave devices ev) dev (N.step env p ev) := by
  have hS := h.stock.event (env := env) (p := p) ev hG'
  have hG := single_prefix hG' (gave_prefix _ _)
  refine ⟨hS, fun c x' hx' hcur => ?_⟩
  by_cases hit : ∃ k wr, ev = .iterate k wr
  rotate_left
  · obtain ⟨q1, _, q3, _⟩ := event_else (env := env) (p := p) N ev (fun k wr he => hit ⟨k, wr, he⟩)
    rcases q3 c x' hx' with hn | ⟨x, hx, hxc, _⟩
    · rw [hn] at hcur; cases hcur
    obtain ⟨o0, o1, o2⟩ := h.one c x hx (hxc.trans hcur)
    refine ⟨(gave_prefix _ _).subset o0, fun d hd => ?_, fun k y hk hy hyc => ?_⟩
    · rcases q1 with ⟨q1, _⟩ | ⟨d1, l1, l2, _, r1, r2⟩ | ⟨d1, rfl, r1⟩
      · rw [q1] at hd; exact o1 d hd
      · rw [r2] at hd
        refine o1 d ?_
        rw [r1]
        simp only [List.mem_append, List.mem_cons] at hd ⊢
        rcases hd with hd | hd
        · exact .inl hd
        · exact .inr (.inr hd)
      · rw [r1] at hd
        rcases List.mem_append.mp hd with hd | hd
        · exact o1 d hd
        · rw [List.mem_singleton.mp hd]; exact single_fresh hG' o0
    · rcases q3 k y hy with hn | ⟨z, hz, hzc, _⟩
      · rw [hn] at hyc; cases hyc
      · exact o2 k z hk hz (hzc.trans hyc)
  obtain ⟨k, wr, rfl⟩ := hit
  rcases event_iterate (env := env) (p := p) N k wr with ⟨e1, _⟩ | ⟨x, hx, hr, _, hN, _⟩
  · rw [e1] at hx' ⊢; exact h.one c x' hx' hcur
  rw [hN] at hx' ⊢
  dsimp only at hx' ⊢
  have hEff := iterate_Effect env p N.sys.shared x wr
  generalize (x.iterate env p N.sys.shared wr).1 = s' at hEff ⊢
  generalize (x.iterate env p N.sys.shared wr).2 = z at hEff hx' ⊢
  show dev ∈ devices ∧ _
  by_cases hck : c = k
  · subst hck
    simp only [setConn, if_true, Option.some.injEq] at hx'
    subst hx'
    have key : dev ∈ devices ∧ (∀ d ∈ s'.available, d.busId ≠ dev.busId) ∧
        ∀ k y, k ≠ c → N.sys.conns k = some y → y.current ≠ some dev.busId := by
      rw [hcur] at hEff
      generalize hcc : some dev.busId = cur' at hEff
      cases hEff with
      | keep ha hu =>
        obtain ⟨o0, o1, o2⟩ := h.one c x hx hcc.symm
        exact ⟨o0, by rw [ha]; exact o1, fun k y hk hy => by rw [← hcc]; exact o2 k y hk hy⟩
      | refuse ha hu => cases hcc
      | grant d l1 l2 hh ha hu =>
        injection hcc with hcc
        have hin : d ∈ N.sys.shared.available := by rw [hh]; simp
        have hd : d = dev := single_mem hG (h.stock.avail hin) hcc.symm
        subst hd
        refine ⟨h.stock.avail hin, by rw [ha]; exact h.stock.alone hG hh rfl, fun k y _ hy hyc => ?_⟩
        exact (h.one k y hy hyc).2.1 d hin rfl
      | release id d hc' hg' ha hu => cases hcc
    refine ⟨key.1, key.2.1, fun k y hk hy => ?_⟩
    rw [setConn_ne hk] at hy
    exact key.2.2 k y hk hy
  · rw [setConn_ne hck] at hx'
    obtain ⟨o0, o1, o2⟩ := h.one c x' hx' hcur
    have hxc := o2 k x (Ne.symm hck) hx
    have key : (∀ d ∈ s'.available, d.busId ≠ dev.busId) ∧ z.current ≠ some dev.busId := by
      generalize hcc : z.current = cur' at hEff ⊢
      cases hEff with
      | keep ha hu => rw [ha]; exact ⟨o1, hxc⟩
      | refuse ha hu => rw [ha]; exact ⟨o1, by simp⟩
      | grant d l1 l2 hh ha hu =>
        rw [ha]
        rw [hh] at o1
        refine ⟨fun d' hd' => o1 d' ?_, ?_⟩
        · simp only [List.mem_append, List.mem_cons] at hd' ⊢
          rcases hd' with hd' | hd'
          · exact .inl hd'
          · exact .inr (.inr hd')
        · have := o1 d (by simp)
          simpa using this
      | release id d hc' hg' ha hu =>
        rw [ha]
        refine ⟨fun d' hd' => ?_, by simp⟩
        rcases List.mem_append.mp hd' with hd' | hd'
        · exact o1 d' hd'
        · rw [List.mem_singleton.mp hd', h.stock.keyed _ (amGet_mem hg')]
          rintro rfl
          exact hxc hc'
    refine ⟨o0, key.1, fun k' y hk' hy => ?_⟩
    by_cases hkk : k' = k
    · subst hkk
      simp only [setConn, if_true, Option.some.injEq] at hy
      subst hy; exact key.2
    · rw [setConn_ne hkk] at hy
      exact o2 k' y hk' hy

theorem Whereabouts.events (hG : Single dev devices) (evs : List (NetEvent σ)) : ∀ {N : Net σ}, Whereabouts devices dev N →
    (∀ ev ∈ evs, ∀ d, ev ≠ .addDevice d) → Whereabouts devices dev (N.run env p evs) := by
  induction evs with
  | nil => intro N hl _; exact hl
  | cons ev evs ih =>
    intro N hl h
    have h1 := h ev (List.mem_cons_self ..)
    have := hl.event (env := env) (p := p) ev (by rw [gave_else h1]; exact hG)
    rw [gave_else h1] at this
    exact ih this (fun ev' hm => h ev' (List.mem_cons_of_mem _ hm))

/-- Client `c` ended with the device. -/
def Died (dev : Device) (N : Net σ) (c : Nat) : Prop :=
  ∃ x, N.sys.conns c = some x ∧ x.status ≠ .running ∧ x.current = some dev.busId

theorem Died.event {N : Net σ} {c : Nat} (h : Died dev N c) (ev : NetEvent σ) : Died dev (N.step env p ev) c := by
  obtain ⟨x, hx, hr, hc⟩ := h
  by_cases hit : ∃ k wr, ev = .iterate k wr
  · obtain ⟨k, wr, rfl⟩ := hit
    rcases event_iterate (env := env) (p := p) N k wr with ⟨e1, _⟩ | ⟨y, hy, hyr, _, hN, _⟩
    · rw [e1]; exact ⟨x, hx, hr, hc⟩
    · have hk : c ≠ k := by rintro rfl; rw [hx] at hy; cases hy; exact hr hyr
      exact ⟨x, by rw [hN]; dsimp only; rw [setConn_ne hk]; exact hx, hr, hc⟩
  · obtain ⟨_, _, q3, q4⟩ := event_else (env := env) (p := p) N ev (fun k wr he => hit ⟨k, wr, he⟩)
    obtain ⟨x', hx', hc'⟩ := q4 c x hx
    refine ⟨x', hx', fun hr' => ?_, hc'.trans hc⟩
    rcases q3 c x' hx' with hn | ⟨z, hz, _, hzr, _⟩
    · rw [hc', hc] at hn; cases hn
    · rw [hx] at hz; cases hz; exact hr (hzr hr')

theorem Died.events (evs : List (NetEvent σ)) : ∀ {N : Net σ} {c : Nat}, Died dev N c → Died dev (N.run env p evs) c := by
  induction evs with
  | nil => intro N c h; exact h
  | cons ev evs ih => intro N c h; exact ih (h.event ev)

/-- An event that is no iteration leaves a connection's status, unless it is dropped. -/
theorem else_status (N : Net σ) (ev : NetEvent σ) (hit : ∀ k wr, ev ≠ .iterate k wr) {c : Nat} {x : Conn} (hx : N.sys.conns c = some x) :
    ∃ x', (N.step env p ev).sys.conns c = some x' ∧ x'.current = x.current ∧ (x'.status = x.status ∨ x.status = .running) := by
  have one : ∀ (k : Nat) (y z : Conn), N.sys.conns k = some y → z.current = y.current → (z.status = y.status ∨ y.status = .running) →
      ∃ x', setConn N.sys.conns k z c = some x' ∧ x'.current = x.current ∧ (x'.status = x.status ∨ x.status = .running) := by
    intro k y z hy h1 h2
    by_cases hk : c = k
    · subst hk
      rw [hx] at hy; cases hy
      exact ⟨z, by simp only [setConn, if_true], h1, h2⟩
    · exact ⟨x, by rw [setConn_ne hk]; exact hx, rfl, .inl rfl⟩
  cases ev with
  | iterate k wr => exact absurd rfl (hit k wr)
  | connect k =>
    simp only [Net.step, Sys.step]
    cases hk : N.sys.conns k with
    | some y => exact ⟨x, hx, rfl, .inl rfl⟩
    | none =>
      have : c ≠ k := by rintro rfl; rw [hk] at hx; cases hx
      exact ⟨x, by dsimp only; rw [setConn_ne this]; exact hx, rfl, .inl rfl⟩
  | arrive k bs =>
    simp only [Net.step]
    split
    · rename_i y hy he; exact one k y _ hy rfl (.inl rfl)
    · exact ⟨x, hx, rfl, .inl rfl⟩
  | hangup k er =>
    simp only [Net.step]
    split
    · rename_i y hy he; exact one k y _ hy rfl (.inl rfl)
    · exact ⟨x, hx, rfl, .inl rfl⟩
  | cancel k =>
    simp only [Net.step, Sys.step]
    cases hk : N.sys.conns k with
    | none => exact ⟨x, hx, rfl, .inl rfl⟩
    | some y =>
      dsimp only
      split
      · rename_i hr; exact one k y _ hk rfl (.inr hr)
      · exact ⟨x, hx, rfl, .inl rfl⟩
  | _ => exact ⟨x, hx, rfl, .inl rfl⟩

/-- A host that was given the device has it, or has given it back. -/
def Settled (dev : Device) (x : Conn) : Prop :=
  x.current = some dev.busId ∨ (x.current = none ∧ (x.status = .closed ∨ ∃ er, x.status = .failed er))

theorem settled_event (hG : Single dev devices) {H : Nat → Prop} {N : Net σ} {L : Nat → List (Bytes × Handled)}
    (hS : Stock devices dev N.sys.shared N.sys.conns) {c : Nat} (hc : H c) {ev : NetEvent σ}
    (hT : ∀ k wr, ev = .iterate k wr → Turns p H dev N L)
    (h : GivenBy dev (L c) → ∀ x, N.sys.conns c = some x → Settled dev x)
    (hcon : GivenBy dev (L c) → N.sys.conns c ≠ none)
    (hg : GivenBy dev (L c ++ made env p c N ev)) :
    ∀ x, (N.step env p ev).sys.conns c = some x → Settled dev x := by
  intro x' hx'
  by_cases hold : GivenBy dev (L c)
  rotate_left
  · obtain ⟨wr, x, z, l1, l2, rfl, hx, e1, e2, e3, e4, e5⟩ := newly hG hS hc hT hold hg
    rw [e3] at hx'
    simp only [setConn, if_true, Option.some.injEq] at hx'
    subst hx'
    exact .inl e5
  have hset := h hold
  cases hx : N.sys.conns c with
  | none => exact absurd hx (hcon hold)
  | some x =>
  by_cases hit : ∃ k wr, ev = .iterate k wr
  rotate_left
  · obtain ⟨z, hz, hzc, hzs⟩ := else_status (env := env) (p := p) N ev (fun k wr he => hit ⟨k, wr, he⟩) hx
    rw [hz] at hx'
    cases hx'
    rcases hset x hx with h | ⟨h1, h2⟩
    · exact .inl (hzc.trans h)
    · refine .inr ⟨hzc.trans h1, ?_⟩
      rcases hzs with hzs | hzs
      · rw [hzs]; exact h2
      · rcases h2 with h | ⟨er, h⟩ <;> rw [h] at hzs <;> cases hzs
  obtain ⟨k, wr, rfl⟩ := hit
  rcases event_iterate (env := env) (p := p) N k wr with ⟨e1, _⟩ | ⟨y, hy, hyr, _, hN, _⟩
  · rw [e1] at hx'; exact hset x' hx'
  rw [hN] at hx'
  dsimp only at hx'
  by_cases hck : c = k
  rotate_left
  · rw [setConn_ne hck] at hx'; exact hset x' hx'
  subst hck
  rw [hx] at hy
  cases hy
  simp only [setConn, if_true, Option.some.injEq] at hx'
  have hcur : x.current = some dev.busId := by
    rcases hset x hx with h | ⟨_, h | ⟨er, h⟩⟩
    · exact h
    · rw [h] at hyr; cases hyr
    · rw [h] at hyr; cases hyr
  have hne : L c ≠ [] := by
    obtain ⟨g, t, e, _⟩ := hold
    intro h0; rw [h0] at e; cases e
  cases hrd : readCommand p x.input with
  | ok v =>
    obtain ⟨cmd, rest⟩ := v
    have hni := ((hT c wr rfl).next c hc x hx hyr cmd rest hrd).2 hne
    left
    rw [← hx', (iterate_reads (env := env) (s := N.sys.shared) (wr := wr) hrd).2]
    rcases serve_effect env p N.sys.shared x.current cmd with ⟨st, b, _, _, _, e, _⟩ | ⟨st, b, e, _⟩ | ⟨_, _, _, q⟩
    · subst e; cases hni
    · subst e; cases hni
    · rw [q, hcur]
  | _ =>
    have hi := iterate_res env p N.sys.shared x wr
    rw [hx'] at hi
    generalize (x.iterate env p N.sys.shared wr).1 = s' at hi
    cases hi with
    | done e s' hr1 hrel =>
      right
      refine ⟨rfl, ?_⟩
      dsimp only
      split
      · exact .inl rfl
      · exact .inr ⟨_, rfl⟩
    | missing e hr1 hrel => exact .inl hcur
    | readPanic hr1 => exact .inl hcur
    | answered cmd rest resp s' cur' bytes hr1 hs hb hw => rw [hrd] at hr1; cases hr1
    | writeFailed cmd rest resp s' cur' bytes n e hr1 hs hb hw => rw [hrd] at hr1; cases hr1
    | writeCut cmd rest resp s' cur' bytes n hr1 hs hb hw => rw [hrd] at hr1; cases hr1
    | servePanic cmd rest hr1 hs => rw [hrd] at hr1; cases hr1

end

section
variable {τ : Type} {code : Code τ} {env : Env (HandlerId → τ)} {p : Profile} {devices : List Device} {dev : Device}
  {w : World (HandlerId → τ)}
  {e : MachineExec code env p (Machine.init code devices w)} {H : Nat → Prop} {busid : Nat → Bytes} {devid : Nat → UInt32}
  {d : Nat → Nat → Driver} {ls : Nat → List (MachineLabel (HandlerId → τ))} {L : Nat → Nat → List (Bytes × Handled)}

theorem whereabouts (hA : AllTold e ls L) (hG : ∀ n, Single dev (devicesBy e.label devices n)) (n : Nat) :
    Whereabouts (devicesBy e.label devices n) dev (behindNet env p devices w (ls n)) := by
  induction n with
  | zero =>
    rw [hA.zero]
    exact ⟨Stock.init devices w, fun c x hx => by cases hx⟩
  | succ n ih =>
    have hG' := hG (n + 1)
    rcases hA.step n with ⟨e1, e0, e2⟩ | ⟨lb, ev, hl, hev, e0, e1, e2⟩ | ⟨evs, hall, e0, e1, e2⟩
    · rw [e0, e1]; exact ih
    · rw [e0] at hG' ⊢
      rw [e1]
      exact ih.event ev hG'
    · rw [e0, e1]
      exact ih.events (hG n) evs (fun ev h => (hall ev h).1)

theorem died_later (hA : AllTold e ls L) {c n m : Nat} (h : n ≤ m) (hd : Died dev (behindNet env p devices w (ls n)) c) :
    Died dev (behindNet env p devices w (ls m)) c := by
  induction h with
  | refl => exact hd
  | @step m _ ih =>
    rcases hA.step m with ⟨e1, _⟩ | ⟨lb, ev, _, _, _, e1, _⟩ | ⟨evs, _, _, e1, _⟩
    · rw [e1]; exact ih
    · rw [e1]; exact ih.event ev
    · rw [e1]; exact ih.events evs

/-- A connection that is over is not being worked on. -/
theorem over_idle (hb : Behaves code env) (hA : AllTold e ls L) {c n : Nat} {y : Conn}
    (hy : (e.state n).whole.fine.cfg.conns c = some y) (hr : y.status ≠ .running) : (e.state n).whole.fine.cfg.idle c := by
  obtain ⟨_, w', _, hr'⟩ := whole_reach hb (hA.told c n).inv.whole
  intro t f hf ho
  obtain ⟨x, hx, hxr⟩ := (TInv.reach hr').owned (t := t) (f := f) (c := c) hf ho
  have : (e.state n).whole.fine.cfg.conns c = some x := hx
  rw [hy] at this
  cases this
  exact hr hxr

theorem died_iff (hb : Behaves code env) (hA : AllTold e ls L) (c n : Nat) :
    TookAlong (e.state n) c dev → Died dev (behindNet env p devices w (ls n)) c := by
  rintro ⟨y, hy, hr, hc⟩
  have h4 := (C81_explained code env hb p devices w _ _ (hA.told c n).inv.whole).2.2.2.1 c (over_idle hb hA hy hr)
  rw [hy, Option.map_some] at h4
  exact ⟨_, h4, hr, hc⟩

/-- A host that asks for a device that was taken along cannot have it. -/
theorem denied (hA : AllTold e ls L) (ha : ∀ c, H c → Alongside e c (busid c) (devid c) (d c))
    (hE : ∀ c, H c → Exported e devices dev (busid c)) {c1 c n m : Nat} (hc : H c)
    (hd : Died dev (behindNet env p devices w (ls n)) c1) (hnm : n ≤ m) (h0 : L c n = []) (hm : L c m ≠ []) :
    Denied ((L c m).map (·.2)) := by
  obtain ⟨_, hG⟩ := hE c hc
  induction hnm with
  | refl => exact absurd h0 hm
  | @step m hnm ih =>
    by_cases h1 : L c m = []
    rotate_left
    · obtain ⟨g, l, h2, h3⟩ := ih h1
      obtain ⟨t, ht⟩ := hA.grows c m
      exact ⟨g, l ++ t.map (·.2), by rw [← ht, List.map_append, h2]; rfl, h3⟩
    rcases hA.step m with ⟨_, _, e2⟩ | ⟨lb, ev, hl, hev, _, e1, e2⟩ | ⟨evs, _, _, _, e2⟩
    · rw [e2] at hm; exact absurd h1 hm
    rotate_left
    · rw [e2] at hm; exact absurd h1 hm
    rw [e2, h1, List.nil_append] at hm ⊢
    have hW := whereabouts hA hG m
    obtain ⟨y, hy, _, hyc⟩ := died_later hA hnm hd
    obtain ⟨_, hav, _⟩ := hW.one c1 y hy hyc
    obtain ⟨wr, x, cmd, rest, resp, bytes, used, rfl, hx, hr, _, hrd, hs, hm', _⟩ := made_turn hm
    rcases first_turn (env := env) (hG m) hW.stock (turns hA ha hE m) hc h1 hx hr hrd with ⟨l1, l2, h2, _⟩ | ⟨_, h2⟩
    · exact absurd rfl (hav dev (by rw [h2]; simp))
    · rw [h2] at hs
      cases hs
      rw [hm']
      exact ⟨_, _, rfl, rfl⟩

theorem settled (hb : Behaves code env) (hA : AllTold e ls L) (ha : ∀ c, H c → Alongside e c (busid c) (devid c) (d c))
    (hE : ∀ c, H c → Exported e devices dev (busid c)) {c : Nat} (hc : H c) (n : Nat) (hg : GivenBy dev (L c n)) :
    ∀ x, (behindNet env p devices w (ls n)).sys.conns c = some x → Settled dev x := by
  obtain ⟨_, hG⟩ := hE c hc
  have hconn : ∀ n, GivenBy dev (L c n) → (behindNet env p devices w (ls n)).sys.conns c ≠ none := by
    intro n hg
    have hP : PInv ((Proc.init devices w).run env p ((ls n).filterMap machineEvent)) := (PInv.init devices w).run _
    have hne : L c n ≠ [] := by
      obtain ⟨g, t, e, _⟩ := hg
      intro h
      rw [h] at e; cases e
    have := (hP.conn c).mpr (by rw [(hA.told c n).inv.front]; exact answered_accepted hA hne)
    rwa [(hA.told c n).inv.net] at this
  induction n with
  | zero =>
    have := (hA.told c 0).made
    rw [hA.zero] at this
    obtain ⟨g, t, e, _⟩ := hg
    rw [show L c 0 = [] from this] at e; cases e
  | succ n ih =>
    rcases hA.step n with ⟨e1, _, e2⟩ | ⟨lb, ev, hl, hev, _, e1, e2⟩ | ⟨evs, hall, _, e1, e2⟩
    · rw [e1]; rw [e2] at hg; exact ih hg
    · rw [e1]
      rw [e2] at hg
      exact settled_event (hG n) (whereabouts hA hG n).stock hc (L := fun c => L c n) (fun _ _ _ => turns hA ha hE n) ih (hconn n) hg
    · rw [e1]
      rw [e2] at hg
      have h1 := ih hg
      have h2 := hconn n hg
      clear e1
      generalize behindNet env p devices w (ls n) = N at h1 h2 ⊢
      induction evs generalizing N with
      | nil => exact h1
      | cons ev evs ih' =>
        have hno := (hall ev (List.mem_cons_self ..)).2.2
        refine ih' (fun ev' hm => hall ev' (List.mem_cons_of_mem _ hm)) (N.step env p ev) ?_ ?_
        · intro x' hx'
          cases hx : N.sys.conns c with
          | none => exact absurd hx h2
          | some x =>
            obtain ⟨z, hz, hzc, hzs⟩ := else_status (env := env) (p := p) N ev hno hx
            rw [hz] at hx'
            cases hx'
            rcases h1 x hx with h | ⟨h1, h2⟩
            · exact .inl (hzc.trans h)
            · refine .inr ⟨hzc.trans h1, ?_⟩
              rcases hzs with hzs | hzs
              · rw [hzs]; exact h2
              · rcases h2 with h | ⟨er, h⟩ <;> rw [h] at hzs <;> cases hzs
        · cases hx : N.sys.conns c with
          | none => exact absurd hx h2
          | some x =>
            obtain ⟨z, hz, _⟩ := else_status (env := env) (p := p) N ev hno hx
            rw [hz]; exact fun h => nomatch h

/-- Once taken along, always taken along. -/
theorem took_stays (hb : Behaves code env) (hA : AllTold e ls L) {c n m : Nat} (h : TookAlong (e.state n) c dev) (hm : n ≤ m) :
    TookAlong (e.state m) c dev := by
  obtain ⟨y, hy, hr, hcur⟩ := h
  have hi := over_idle hb hA hy hr
  obtain ⟨e', W⟩ := exists_within hb e
  obtain ⟨e'', B⟩ := exists_behind hb e'
  obtain ⟨w1, h1⟩ := B.same (3 * n)
  obtain ⟨w2, h2⟩ := B.same (3 * m)
  rw [W.state0] at h1 h2
  have hx : (e''.state (3 * n)).cfg.conns c = some y := by rw [h1]; exact hy
  obtain ⟨_, _, z, g1, g2, g3, _⟩ := e''.stays_over hx hr (by rw [h1]; exact hi) (show 3 * n ≤ 3 * m by omega)
  rw [h2] at g1
  exact ⟨z, g1, by rw [g2]; exact hr, by rw [g3]; exact hcur⟩

/-- A host that was given the device and whose connection is over has given it back or taken it along. -/
theorem over_settled (hb : Behaves code env) (hA : AllTold e ls L) (ha : ∀ c, H c → Alongside e c (busid c) (devid c) (d c))
    (hE : ∀ c, H c → Exported e devices dev (busid c)) {c : Nat} (hc : H c) {n : Nat} (hg : GivenBy dev (L c n)) {y : Conn}
    (hy : (e.state n).whole.fine.cfg.conns c = some y) (hr : y.status ≠ .running) :
    GaveBack (e.state n) c ∨ TookAlong (e.state n) c dev := by
  have h4 := (C81_explained code env hb p devices w _ _ (hA.told c n).inv.whole).2.2.2.1 c (over_idle hb hA hy hr)
  rw [hy, Option.map_some] at h4
  rcases settled hb hA ha hE hc n hg _ h4 with h | ⟨h1, h2⟩
  · exact .inr ⟨y, hy, hr, h⟩
  · exact .inl ⟨y, hy, h1, h2⟩

end

end Usbip
