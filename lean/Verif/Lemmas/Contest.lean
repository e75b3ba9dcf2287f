import Verif.Lemmas.Granted
import Verif.Spec.Contest
/-! Helper lemmas: several hosts want the same device. -/

namespace Usbip
open Spec

section
variable {σ : Type} {env : Env σ} {p : Profile} {devices : List Device} {dev : Device}

/-- An iteration in which a request is read. -/
theorem iterate_reads {s : Shared σ} {x : Conn} {wr : WriteRes} {cmd : Cmd} {rest : Stream}
    (h : readCommand p x.input = .ok (cmd, rest)) :
    (x.iterate env p s wr).1 = (s.serve env p x.current cmd).2.1 ∧
    (x.iterate env p s wr).2.current = (s.serve env p x.current cmd).2.2 := by
  have hi := iterate_res env p s x wr
  generalize (x.iterate env p s wr).1 = s' at hi ⊢
  generalize (x.iterate env p s wr).2 = x' at hi ⊢
  cases hi with
  | done e s' hr hrel => rw [h] at hr; cases hr
  | missing e hr hrel => rw [h] at hr; cases hr
  | readPanic hr => rw [h] at hr; rcases hr with hr | hr <;> cases hr
  | answered cmd rest resp s' cur' bytes hr hs hb hw => rw [h] at hr; cases hr; rw [hs]; exact ⟨rfl, rfl⟩
  | writeFailed cmd rest resp s' cur' bytes n e hr hs hb hw => rw [h] at hr; cases hr; rw [hs]; exact ⟨rfl, rfl⟩
  | writeCut cmd rest resp s' cur' bytes n hr hs hb hw => rw [h] at hr; cases hr; rw [hs]; exact ⟨rfl, rfl⟩
  | servePanic cmd rest hr hs => rw [h] at hr; cases hr; exact ⟨rfl, rfl⟩

theorem ended_step (N : Net σ) (ev : NetEvent σ) {c : Nat} (h : N.ended c ≠ none) : (N.step env p ev).ended c ≠ none := by
  cases ev with
  | hangup k er =>
    simp only [Net.step]
    split
    · rename_i x hx he
      dsimp only
      split
      · simp
      · exact h
    · exact h
  | arrive k bs => simp only [Net.step]; split <;> exact h
  | iterate k wr => simp only [Net.step]; split <;> exact h
  | _ => exact h

/-! ## The hosts' requests -/

/-- The hosts in `H` ask for the device first, and for no other device; and they send requests only. -/
structure Turns (p : Profile) (H : Nat → Prop) (dev : Device) (N : Net σ) (L : Nat → List (Bytes × Handled)) : Prop where
  next : ∀ c, H c → ∀ x, N.sys.conns c = some x → x.status = .running → ∀ cmd rest, readCommand p x.input = .ok (cmd, rest) →
    (L c = [] → ∃ b, cmd = .reqImport 0 b ∧ cstr b = dev.busId) ∧ (L c ≠ [] → isImport cmd = false)
  whole : ∀ c, H c → ∀ x, N.sys.conns c = some x → x.status = .running → N.ended c = none → N.ready p c = true →
    ∃ cmd rest, readCommand p x.input = .ok (cmd, rest)

/-- A client's record says that it has been given the device. -/
abbrev GivenBy (dev : Device) (L : List (Bytes × Handled)) : Prop := Awarded dev (L.map (·.2))

theorem givenBy_append {L l : List (Bytes × Handled)} (h : GivenBy dev L) : GivenBy dev (L ++ l) := by
  obtain ⟨g, t, e, h⟩ := h
  exact ⟨g, t ++ l.map (·.2), by rw [List.map_append, e]; rfl, h⟩

theorem made_else {c : Nat} {N : Net σ} {ev : NetEvent σ} (hit : ∀ k wr, ev ≠ .iterate k wr) : made env p c N ev = [] := by
  cases ev with
  | iterate k wr => exact absurd rfl (hit k wr)
  | _ => rfl

/-- The first request of a host. -/
theorem first_turn (hG : Single dev devices) {H : Nat → Prop} {N : Net σ}
    {L : Nat → List (Bytes × Handled)} (hS : Stock devices dev N.sys.shared N.sys.conns) (hT : Turns p H dev N L) {c : Nat} (hc : H c) (h0 : L c = []) {x : Conn}
    (hx : N.sys.conns c = some x) (hr : x.status = .running) {cmd : Cmd} {rest : Stream} (hrd : readCommand p x.input = .ok (cmd, rest)) :
    (∃ l1 l2, N.sys.shared.available = l1 ++ dev :: l2 ∧ N.sys.shared.serve env p x.current cmd =
      (.ok (.repImport 0 (some dev)), { N.sys.shared with available := l1 ++ l2, used := amInsert dev.busId dev N.sys.shared.used },
        some dev.busId)) ∨
    ((∀ d ∈ N.sys.shared.available, d.busId ≠ dev.busId) ∧
      N.sys.shared.serve env p x.current cmd = (.ok (.repImport 1 none), N.sys.shared, none)) := by
  obtain ⟨b, rfl, hb⟩ := (hT.next c hc x hx hr cmd rest hrd).1 h0
  rcases serve_effect env p N.sys.shared x.current (.reqImport 0 b) with
    ⟨st1, b1, d1, l1, l2, e1, e2, e3, _, e4⟩ | ⟨st1, b1, e1, e2, e4⟩ | ⟨e1, _, _, e4⟩
  · cases e1
    have : d1 = dev := single_mem hG (hS.avail (d := d1) (by rw [e2]; simp)) (by
      rw [e3, busidCompare_eq, hb])
    subst this
    exact .inl ⟨l1, l2, e2, e4⟩
  · cases e1
    refine .inr ⟨fun d hd => ?_, e4⟩
    have := e2 d hd
    rwa [busidCompare_eq, hb] at this
  · cases e1

/-- What a host's turn is, if something is made of it. -/
theorem made_turn {N : Net σ} {c : Nat} {ev : NetEvent σ} (h : made env p c N ev ≠ []) :
    ∃ wr x cmd rest resp bytes used, ev = .iterate c wr ∧ N.sys.conns c = some x ∧ x.status = .running ∧ N.ready p c = true ∧
      readCommand p x.input = .ok (cmd, rest) ∧ (N.sys.shared.serve env p x.current cmd).1 = .ok resp ∧
      made env p c N ev = [(used, cmd, resp, bytes)] ∧
      (N.step env p ev).sys = ⟨(x.iterate env p N.sys.shared wr).1, setConn N.sys.conns c (x.iterate env p N.sys.shared wr).2⟩ ∧
      (N.step env p ev).ended = N.ended := by
  by_cases hit : ∃ k wr, ev = .iterate k wr
  rotate_left
  · exact absurd (made_else (fun k wr he => hit ⟨k, wr, he⟩)) h
  obtain ⟨k, wr, rfl⟩ := hit
  rcases event_iterate (env := env) (p := p) N k wr with ⟨_, e1⟩ | ⟨x, hx, hr, hrdy, hN, hE, hm, ho⟩
  · exact absurd (e1 c) h
  · by_cases hk : c = k
    rotate_left
    · exact absurd (ho c hk) h
    subst hk
    rcases iterate_made env p N.sys.shared x wr with ⟨g1, _⟩ | ⟨used, cmd, rest, resp, bytes, g1, g2, g3, _⟩
    · rw [hm] at h; exact absurd g1 h
    · exact ⟨wr, x, cmd, rest, resp, bytes, used, rfl, hx, hr, hrdy, g1, g2, hm.trans g3, hN, hE⟩

/-- A host is given the device. -/
theorem newly (hG : Single dev devices) {H : Nat → Prop} {N : Net σ}
    {L : Nat → List (Bytes × Handled)} (hS : Stock devices dev N.sys.shared N.sys.conns) {c : Nat} (hc : H c) {ev : NetEvent σ}
    (hT : ∀ k wr, ev = .iterate k wr → Turns p H dev N L)
    (h : ¬ GivenBy dev (L c)) (h' : GivenBy dev (L c ++ made env p c N ev)) :
    ∃ wr x x' l1 l2, ev = .iterate c wr ∧ N.sys.conns c = some x ∧ N.sys.shared.available = l1 ++ dev :: l2 ∧
      (N.step env p ev).sys.shared.available = l1 ++ l2 ∧ (N.step env p ev).sys.conns = setConn N.sys.conns c x' ∧
      (N.step env p ev).ended = N.ended ∧ x'.current = some dev.busId := by
  have hne : made env p c N ev ≠ [] := by
    intro h0; rw [h0, List.append_nil] at h'; exact h h'
  have h0 : L c = [] := by
    cases hL : L c with
    | nil => rfl
    | cons g t =>
      exfalso
      rw [hL] at h h'
      obtain ⟨g', t', e, hg⟩ := h'
      simp only [List.cons_append, List.map_cons, List.cons.injEq] at e
      exact h ⟨g', t.map (·.2), by rw [List.map_cons, e.1], hg⟩
  obtain ⟨wr, x, cmd, rest, resp, bytes, used, rfl, hx, hr, _, hrd, hs, hm, hN, hE⟩ := made_turn hne
  rw [h0, hm] at h'
  obtain ⟨g', t', e, hg⟩ := h'
  cases e
  dsimp only at hg
  subst hg
  obtain ⟨i1, i2⟩ := iterate_reads (env := env) (s := N.sys.shared) (wr := wr) hrd
  rcases first_turn (env := env) hG hS (hT c wr rfl) hc h0 hx hr hrd with ⟨l1, l2, e1, e2⟩ | ⟨_, e2⟩
  · rw [e2] at i1 i2
    exact ⟨wr, x, _, l1, l2, rfl, hx, e1, by rw [hN]; dsimp only; rw [i1], by rw [hN], hE, i2⟩
  · rw [e2] at hs; cases hs

/-- What is true of the hosts, all along; `devices` is what the server has been given. -/
structure Contest (devices : List Device) (dev : Device) (H : Nat → Prop) (N : Net σ) (L : Nat → List (Bytes × Handled)) : Prop where
  stock : Stock devices dev N.sys.shared N.sys.conns
  given : ∀ c, H c → GivenBy dev (L c) → dev ∈ devices
  gone : ∀ c, H c → GivenBy dev (L c) → N.ended c = none → (∀ d ∈ N.sys.shared.available, d.busId ≠ dev.busId) ∧
    ∀ k y, k ≠ c → N.sys.conns k = some y → y.status = .running → y.current ≠ some dev.busId
  one : ∀ c1 c2, H c1 → H c2 → c1 ≠ c2 → GivenBy dev (L c1) → GivenBy dev (L c2) → N.ended c1 ≠ none ∨ N.ended c2 ≠ none

theorem Contest.event {H : Nat → Prop} {N : Net σ}
    {L : Nat → List (Bytes × Handled)} (h : Contest devices dev H N L) (ev : NetEvent σ) (hG' : Single dev (gave devices ev))
    (hT : ∀ k wr, ev = .iterate k wr → Turns p H dev N L) :
    Contest (gave devices ev) dev H (N.step env p ev) (fun c => L c ++ made env p c N ev) := by
  have hS := h.stock.event (env := env) (p := p) ev hG'
  have hG := single_prefix hG' (gave_prefix _ _)
  have hI := h.stock
  refine ⟨hS, fun c hc hg => ?_, fun c hc hg he => ?_, fun c1 c2 h1 h2 hne g1 g2 => ?_⟩
  · by_cases hold : GivenBy dev (L c)
    · exact (gave_prefix _ _).subset (h.given c hc hold)
    · obtain ⟨_, _, _, l1, l2, _, _, e1, _⟩ := newly hG h.stock hc hT hold hg
      exact (gave_prefix _ _).subset (hI.avail (by rw [e1]; simp))
  · have he0 : N.ended c = none := Classical.byContradiction fun hn => ended_step (env := env) (p := p) N ev hn he
    by_cases hold : GivenBy dev (L c)
    rotate_left
    · obtain ⟨wr, x, x', l1, l2, rfl, hx, e1, e2, e3, e4, e5⟩ := newly hG h.stock hc hT hold hg
      constructor
      · rw [e2]
        exact hI.alone hG e1 rfl
      · intro k y hk hy hr hcur
        rw [e3, setConn_ne hk] at hy
        exact hI.apart hG (hI.held k y hy hr hcur) dev (by rw [e1]; simp) rfl
    obtain ⟨o1, o2⟩ := h.gone c hc hold he0
    by_cases hit : ∃ k wr, ev = .iterate k wr
    · obtain ⟨k, wr, rfl⟩ := hit
      rcases event_iterate (env := env) (p := p) N k wr with ⟨e1, _⟩ | ⟨x, hx, hr, hrdy, hN, hE, hm, ho⟩
      · rw [e1]; exact ⟨o1, o2⟩
      by_cases hk : k = c
      · subst hk
        obtain ⟨cmd, rest, hrd⟩ := (hT k wr rfl).whole k hc x hx hr he0 hrdy
        have hni := ((hT k wr rfl).next k hc x hx hr cmd rest hrd).2 (by
          obtain ⟨g, t, e, _⟩ := hold
          intro h0; rw [h0] at e; cases e)
        obtain ⟨i1, i2⟩ := iterate_reads (env := env) (s := N.sys.shared) (wr := wr) hrd
        rcases serve_effect env p N.sys.shared x.current cmd with ⟨st, b, _, _, _, e, _⟩ | ⟨st, b, e, _⟩ | ⟨_, q1, _, _⟩
        · subst e; cases hni
        · subst e; cases hni
        · rw [hN]
          dsimp only
          rw [i1, q1]
          refine ⟨o1, fun k' y hk' hy => ?_⟩
          rw [setConn_ne hk'] at hy
          exact o2 k' y hk' hy
      · have hcur := o2 k x hk hx hr
        rw [hN]
        dsimp only
        have hEff := iterate_Effect env p N.sys.shared x wr
        generalize (x.iterate env p N.sys.shared wr).1 = s' at hEff ⊢
        generalize hx' : (x.iterate env p N.sys.shared wr).2 = x' at hEff ⊢
        have key : (∀ d ∈ s'.available, d.busId ≠ dev.busId) ∧ x'.current ≠ some dev.busId := by
          generalize hcc : x'.current = cur' at hEff ⊢
          cases hEff with
          | keep ha hu => rw [ha]; exact ⟨o1, hcur⟩
          | refuse ha hu => rw [ha]; exact ⟨o1, by simp⟩
          | grant d l1 l2 hh ha hu =>
            rw [ha]
            rw [hh] at o1
            refine ⟨fun d' hd' => o1 d' ?_, ?_⟩
            · simp only [List.mem_append, List.mem_cons] at hd' ⊢
              rcases hd' with hd' | hd'
              · exact .inl hd'
              · exact .inr (.inr hd')
            · have := o1 d (by simp)
              simpa using this
          | release id d hc' hg' ha hu =>
            rw [ha]
            refine ⟨fun d' hd' => ?_, by simp⟩
            rcases List.mem_append.mp hd' with hd' | hd'
            · exact o1 d' hd'
            · rw [List.mem_singleton.mp hd', hI.keyed _ (amGet_mem hg')]
              rintro rfl
              exact hcur hc'
        refine ⟨key.1, fun k' y hk' hy hr' => ?_⟩
        by_cases hkk : k' = k
        · subst hkk
          simp only [setConn, if_true, Option.some.injEq] at hy
          subst hy; exact key.2
        · rw [setConn_ne hkk] at hy
          exact o2 k' y hk' hy hr'
    · obtain ⟨q1, _, q3, _⟩ := event_else (env := env) (p := p) N ev (fun k wr he => hit ⟨k, wr, he⟩)
      refine ⟨fun d hd => ?_, fun k y hk hy hr hcur => ?_⟩
      · rcases q1 with ⟨q1, _⟩ | ⟨d1, l1, l2, _, r1, r2⟩ | ⟨d1, rfl, r1⟩
        · rw [q1] at hd; exact o1 d hd
        · rw [r2] at hd
          refine o1 d ?_
          rw [r1]
          simp only [List.mem_append, List.mem_cons] at hd ⊢
          rcases hd with hd | hd
          · exact .inl hd
          · exact .inr (.inr hd)
        · rw [r1] at hd
          rcases List.mem_append.mp hd with hd | hd
          · exact o1 d hd
          · rw [List.mem_singleton.mp hd]; exact single_fresh hG' (h.given c hc hold)
      · rcases q3 k y hy with hn | ⟨x, hx, hxc, hxs, _⟩
        · rw [hn] at hcur; cases hcur
        · exact o2 k x hk hx (hxs hr) (hxc.trans hcur)
  · -- at most one of them is given the device now
    have done : ∀ a b, H a → H b → a ≠ b → ¬ GivenBy dev (L a) → GivenBy dev (L a ++ made env p a N ev) →
        GivenBy dev (L b ++ made env p b N ev) → (N.step env p ev).ended b ≠ none := by
      intro a b ha hb hab na ga gb
      obtain ⟨wr, x, x', l1, l2, rfl, hx, e1, e2, e3, e4, e5⟩ := newly hG h.stock ha hT na ga
      have : GivenBy dev (L b) := by
        apply Classical.byContradiction
        intro nb
        obtain ⟨wr', _, _, _, _, hev, _⟩ := newly hG h.stock hb hT nb gb
        cases hev; exact hab rfl
      rw [e4]
      intro hn
      exact (h.gone b hb this hn).1 dev (by rw [e1]; simp) rfl
    by_cases n1 : GivenBy dev (L c1)
    · by_cases n2 : GivenBy dev (L c2)
      · rcases h.one c1 c2 h1 h2 hne n1 n2 with h | h
        · exact .inl (ended_step N ev h)
        · exact .inr (ended_step N ev h)
      · exact .inl (done c2 c1 h2 h1 (Ne.symm hne) n2 g2 g1)
    · exact .inr (done c1 c2 h1 h2 hne n1 g1 g2)

/-- The device is still to be added, or it is there, or a host has it. -/
structure Placed (devices : List Device) (dev : Device) (H : Nat → Prop) (N : Net σ) (L : Nat → List (Bytes × Handled)) : Prop where
  ok : dev ∉ devices ∨ dev ∈ N.sys.shared.available ∨
    ∃ c, H c ∧ GivenBy dev (L c) ∧ ∃ x, N.sys.conns c = some x ∧ x.current = some dev.busId
  over : ∀ c x, N.sys.conns c = some x → x.status = .closed → x.current = none

theorem Placed.event (hpath : dev.path.length ≤ 256)
    (hid : dev.busId.length ≤ 32) {H : Nat → Prop} {N : Net σ}
    {L : Nat → List (Bytes × Handled)} (hS : Stock devices dev N.sys.shared N.sys.conns) (h : Placed devices dev H N L) (ev : NetEvent σ)
    (hG' : Single dev (gave devices ev)) (hT : ∀ k wr, ev = .iterate k wr → Turns p H dev N L) (hrm : ev ≠ .removeDevice dev.busId)
    (hoth : ∀ k wr, ev = .iterate k wr → ¬ H k → ∀ x, N.sys.conns k = some x → x.status = .running → ∀ cmd rest st b,
      readCommand p x.input = .ok (cmd, rest) → cmd = .reqImport st b → cstr b ≠ dev.busId) :
    Placed (gave devices ev) dev H (N.step env p ev) (fun c => L c ++ made env p c N ev) := by
  have hG := single_prefix hG' (gave_prefix _ _)
  by_cases hit : ∃ k wr, ev = .iterate k wr
  rotate_left
  · have hit' : ∀ k wr, ev ≠ .iterate k wr := fun k wr he => hit ⟨k, wr, he⟩
    obtain ⟨q1, _, q3, q4⟩ := event_else (env := env) (p := p) N ev hit'
    refine ⟨?_, fun c x hx hs => ?_⟩
    · rcases h.ok with hnot | hav | ⟨c, hc, hg, x, hx, hcur⟩
      · by_cases had : ∃ d, ev = .addDevice d
        · obtain ⟨d, rfl⟩ := had
          by_cases hd : dev ∈ gave devices (.addDevice d : NetEvent σ)
          · have : d = dev := by
              rcases List.mem_append.mp hd with h | h
              · exact absurd h hnot
              · exact (List.mem_singleton.mp h).symm
            subst this
            exact .inr (.inl (List.mem_append_right _ (List.mem_singleton.mpr rfl)))
          · exact .inl hd
        · rw [gave_else (fun d hd => had ⟨d, hd⟩)]; exact .inl hnot
      · right
        left
        rcases q1 with ⟨q1, _⟩ | ⟨d1, l1, l2, r0, r1, r2⟩ | ⟨d1, _, r1⟩
        · rw [q1]; exact hav
        rotate_left
        · rw [r1]; exact List.mem_append_left _ hav
        · have hne : dev ≠ d1 := by rintro rfl; exact hrm r0
          rw [r1] at hav
          rw [r2]
          simp only [List.mem_append, List.mem_cons] at hav ⊢
          rcases hav with h | h | h
          · exact .inl h
          · exact absurd h hne
          · exact .inr h
      · obtain ⟨x', hx', hc'⟩ := q4 c x hx
        exact .inr (.inr ⟨c, hc, givenBy_append hg, x', hx', hc'.trans hcur⟩)
    · rcases q3 c x hx with hn | ⟨y, hy, hyc, _, hyx⟩
      · exact hn
      · rw [← hyc]; exact h.over c y hy (hyx hs)
  obtain ⟨k, wr, rfl⟩ := hit
  replace hT := hT k wr rfl
  rcases event_iterate (env := env) (p := p) N k wr with ⟨e1, e2⟩ | ⟨x, hx, hr, hrdy, hN, hE, hm, ho⟩
  · refine ⟨?_, by rw [e1]; exact h.over⟩
    simp only [e1, e2, List.append_nil]
    exact h.ok
  refine ⟨?_, fun c y hy hs => ?_⟩
  rotate_left
  · rw [hN] at hy
    by_cases hk : c = k
    · subst hk
      simp only [setConn, if_true, Option.some.injEq] at hy
      have hi := iterate_res env p N.sys.shared x wr
      rw [hy] at hi
      generalize (x.iterate env p N.sys.shared wr).1 = s' at hi
      cases hi with
      | done e s' hr hrel => rfl
      | answered cmd rest resp s' cur' bytes hrd hs' hb hw => dsimp only at hs; rw [hr] at hs; cases hs
      | _ => cases hs
    · dsimp only at hy
      rw [setConn_ne hk] at hy
      exact h.over c y hy hs
  rcases h.ok with hnot | hav | ⟨c, hc, hg, y, hy, hcur⟩
  · exact .inl hnot
  · right
    by_cases hfirst : H k ∧ L k = [] ∧ ∃ cmd rest, readCommand p x.input = .ok (cmd, rest)
    · obtain ⟨hk, h0, cmd, rest, hrd⟩ := hfirst
      right
      rcases first_turn (env := env) hG hS hT hk h0 hx hr hrd with ⟨l1, l2, e1, e2⟩ | ⟨e1, _⟩
      rotate_left
      · exact absurd rfl (e1 dev hav)
      obtain ⟨i1, i2⟩ := iterate_reads (env := env) (s := N.sys.shared) (wr := wr) hrd
      rw [e2] at i2
      refine ⟨k, hk, ?_, (x.iterate env p N.sys.shared wr).2, by rw [hN]; simp only [setConn, if_true], i2⟩
      have hb : ∃ bytes, (Resp.repImport 0 (some dev)).toBytes p = .ok bytes := by
        simp [Resp.toBytes, Device.toBytes, debugAssert, hpath, hid]
      obtain ⟨bytes, hb⟩ := hb
      refine ⟨(cmd, .repImport 0 (some dev), bytes), [], ?_, rfl⟩
      rw [h0, hm]
      simp only [Conn.made, hrd, e2, hb, List.nil_append, List.map_cons, List.map_nil]
    · left
      rw [hN]
      refine iterate_spare (fun cmd rest st b hrd hcmd => ?_) hav
      by_cases hk : H k
      · have hne : L k ≠ [] := fun h0 => hfirst ⟨hk, h0, cmd, rest, hrd⟩
        have := (hT.next k hk x hx hr cmd rest hrd).2 hne
        rw [hcmd] at this; cases this
      · exact hoth k wr rfl hk x hx hr cmd rest st b hrd hcmd
  · by_cases hk : c = k
    rotate_left
    · exact .inr (.inr ⟨c, hc, givenBy_append hg, y, by rw [hN]; dsimp only; rw [setConn_ne hk]; exact hy, hcur⟩)
    subst hk
    right
    rw [hx] at hy; cases hy
    have hne : L c ≠ [] := by
      obtain ⟨g, t, e, _⟩ := hg
      intro h0; rw [h0] at e; cases e
    rw [hN]
    have hi := iterate_res env p N.sys.shared x wr
    have hrds := fun cmd rest hrd => iterate_reads (env := env) (p := p) (s := N.sys.shared) (x := x) (wr := wr) (cmd := cmd) (rest := rest) hrd
    generalize (x.iterate env p N.sys.shared wr).1 = s' at hi hrds ⊢
    generalize (x.iterate env p N.sys.shared wr).2 = x' at hi hrds ⊢
    have keep : x'.current = some dev.busId → dev ∈ s'.available ∨ ∃ c1, H c1 ∧ GivenBy dev (L c1 ++ made env p c1 N (.iterate c wr)) ∧
        ∃ y, setConn N.sys.conns c x' c1 = some y ∧ y.current = some dev.busId :=
      fun he => .inr ⟨c, hc, givenBy_append hg, x', by simp only [setConn, if_true], he⟩
    cases hrd : readCommand p x.input with
    | ok v =>
      obtain ⟨cmd, rest⟩ := v
      have hni := (hT.next c hc x hx hr cmd rest hrd).2 hne
      apply keep
      rw [(hrds cmd rest hrd).2]
      rcases serve_effect env p N.sys.shared x.current cmd with ⟨st, b, _, _, _, e, _⟩ | ⟨st, b, e, _⟩ | ⟨_, _, _, q⟩
      · subst e; cases hni
      · subst e; cases hni
      · rw [q, hcur]
    | err er =>
      cases hi with
      | done e s' hr1 hrel =>
        left
        simp only [Shared.release, hcur] at hrel
        split at hrel
        · rename_i d hd
          cases hrel
          obtain ⟨k1, k2⟩ := hS.device hd
          rw [single_mem hG k1 k2]; simp
        · cases hrel
      | missing e hr1 hrel => exact keep hcur
      | readPanic hr1 => exact keep hcur
      | answered cmd rest resp s' cur' bytes hr1 hs hb hw => rw [hrd] at hr1; cases hr1
      | writeFailed cmd rest resp s' cur' bytes n e hr1 hs hb hw => rw [hrd] at hr1; cases hr1
      | writeCut cmd rest resp s' cur' bytes n hr1 hs hb hw => rw [hrd] at hr1; cases hr1
      | servePanic cmd rest hr1 hs => rw [hrd] at hr1; cases hr1
    | panic =>
      cases hi with
      | done e s' hr1 hrel => rw [hrd] at hr1; cases hr1
      | missing e hr1 hrel => exact keep hcur
      | readPanic hr1 => exact keep hcur
      | answered cmd rest resp s' cur' bytes hr1 hs hb hw => rw [hrd] at hr1; cases hr1
      | writeFailed cmd rest resp s' cur' bytes n e hr1 hs hb hw => rw [hrd] at hr1; cases hr1
      | writeCut cmd rest resp s' cur' bytes n hr1 hs hb hw => rw [hrd] at hr1; cases hr1
      | servePanic cmd rest hr1 hs => rw [hrd] at hr1; cases hr1
    | diverge =>
      cases hi with
      | done e s' hr1 hrel => rw [hrd] at hr1; cases hr1
      | missing e hr1 hrel => exact keep hcur
      | readPanic hr1 => exact keep hcur
      | answered cmd rest resp s' cur' bytes hr1 hs hb hw => rw [hrd] at hr1; cases hr1
      | writeFailed cmd rest resp s' cur' bytes n e hr1 hs hb hw => rw [hrd] at hr1; cases hr1
      | writeCut cmd rest resp s' cur' bytes n hr1 hs hb hw => rw [hrd] at hr1; cases hr1
      | servePanic cmd rest hr1 hs => rw [hrd] at hr1; cases hr1

/-- A host is refused only if the device is not there. -/
theorem refused_absent (hG : Single dev devices) {H : Nat → Prop} {N : Net σ}
    {L : Nat → List (Bytes × Handled)} (hS : Stock devices dev N.sys.shared N.sys.conns) {c : Nat} (hc : H c) {ev : NetEvent σ}
    (hT : ∀ k wr, ev = .iterate k wr → Turns p H dev N L) (h0 : L c = []) (hm : made env p c N ev ≠ [])
    (hn : ¬ GivenBy dev (made env p c N ev)) : dev ∉ N.sys.shared.available := by
  intro hav
  obtain ⟨wr, x, cmd, rest, resp, bytes, used, rfl, hx, hr, _, hrd, hs, hm, hN, hE⟩ := made_turn hm
  rcases first_turn (env := env) hG hS (hT c wr rfl) hc h0 hx hr hrd with ⟨l1, l2, _, e2⟩ | ⟨e1, _⟩
  · rw [e2] at hs
    cases hs
    rw [hm] at hn
    exact hn ⟨_, _, rfl, rfl⟩
  · exact e1 dev hav rfl

/-- Many events, none of which is an iteration. -/
theorem Contest.events (hG : Single dev devices) {H : Nat → Prop}
    (evs : List (NetEvent σ)) : ∀ {N : Net σ} {L : Nat → List (Bytes × Handled)}, Contest devices dev H N L →
    (∀ ev ∈ evs, (∀ d, ev ≠ .addDevice d) ∧ ∀ k wr, ev ≠ .iterate k wr) → Contest devices dev H (N.run env p evs) L := by
  induction evs with
  | nil => intro N L hl _; exact hl
  | cons ev evs ih =>
    intro N L hl h
    obtain ⟨h1, h2⟩ := h ev (List.mem_cons_self ..)
    have := hl.event (env := env) (p := p) ev (by rw [gave_else h1]; exact hG) (fun k wr he => absurd he (h2 k wr))
    simp only [made_else h2, List.append_nil, gave_else h1] at this
    exact ih this (fun ev' hm => h ev' (List.mem_cons_of_mem _ hm))

theorem Placed.events (hG : Single dev devices) (hpath : dev.path.length ≤ 256)
    (hid : dev.busId.length ≤ 32) {H : Nat → Prop} (evs : List (NetEvent σ)) : ∀ {N : Net σ} {L : Nat → List (Bytes × Handled)},
    Contest devices dev H N L → Placed devices dev H N L →
    (∀ ev ∈ evs, (∀ d, ev ≠ .addDevice d) ∧ (∀ i, ev ≠ .removeDevice i) ∧ ∀ k wr, ev ≠ .iterate k wr) →
    Placed devices dev H (N.run env p evs) L := by
  induction evs with
  | nil => intro N L _ hl _; exact hl
  | cons ev evs ih =>
    intro N L hC hl h
    obtain ⟨h1, h2, h3⟩ := h ev (List.mem_cons_self ..)
    have hG' : Single dev (gave devices ev) := by rw [gave_else h1]; exact hG
    have this := hC.event (env := env) (p := p) ev hG' (fun k wr he => absurd he (h3 k wr))
    have that := hl.event (env := env) (p := p) hpath hid hC.stock ev hG' (fun k wr he => absurd he (h3 k wr)) (h2 _)
      (fun k wr he => absurd he (h3 k wr))
    simp only [made_else h3, List.append_nil, gave_else h1] at this that
    exact ih this that (fun ev' hm => h ev' (List.mem_cons_of_mem _ hm))

end

/-! ## The whole process -/

section
variable {τ : Type} {code : Code τ} {env : Env (HandlerId → τ)} {p : Profile} {devices : List Device} {dev : Device}
  {w : World (HandlerId → τ)}
  {e : MachineExec code env p (Machine.init code devices w)} {H : Nat → Prop} {busid : Nat → Bytes} {devid : Nat → UInt32}
  {d : Nat → Nat → Driver}

/-- A host that was refused has nothing more to do. -/
theorem pump_refused (n : Nat) {x : Driver} (h : x.phase = .refused) : x.pump n = x := by
  cases n with
  | zero => rfl
  | succ n => simp only [Driver.pump, Driver.next, h]

theorem moves_refused {x y : Driver} (h : x.Moves y) (hx : x.phase = .refused) : y.phase = .refused := by
  induction h with
  | refl => exact hx
  | submit h seq u hp hf hw ih => rw [ih] at hp; cases hp
  | unlink h seq t hp hf ht ih => rw [ih] at hp; cases hp
  | hear h bs ih => rw [Driver.hear, pump_refused _ (by exact ih)]; exact ih

theorem _root_.Usbip.Spec.Alongside.refused_stays {c : Nat} {busid : Bytes} {devid : UInt32} {d : Nat → Driver}
    (ha : Alongside e c busid devid d) {n m : Nat} (h : n ≤ m) (hn : (d n).phase = .refused) : (d m).phase = .refused := by
  induction h with
  | refl => exact hn
  | step _ ih => exact moves_refused (ha.moves _) ih

/-- What is told of all clients. -/
structure AllTold (e : MachineExec code env p (Machine.init code devices w)) (ls : Nat → List (MachineLabel (HandlerId → τ)))
    (L : Nat → Nat → List (Bytes × Handled)) : Prop where
  told : ∀ c n, Told e c n (ls n) (L c n)
  grows : ∀ c n, L c n <+: L c (n + 1)
  zero : ls 0 = []
  succ : ∀ n, ls (n + 1) = ls n ++ (e.label n).toList

theorem all_told (hb : Behaves code env) (e : MachineExec code env p (Machine.init code devices w)) :
    ∃ ls L, AllTold e ls L := by
  have hex := fun c => exists_told hb e c
  refine ⟨fun n => ((hex 0).choose n).1, fun c n => ((hex c).choose n).2, ?_⟩
  have hsame : ∀ c n, ((hex c).choose n).1 = ((hex 0).choose n).1 := by
    intro c n
    induction n with
    | zero => rw [(hex c).choose_spec.2.1, (hex 0).choose_spec.2.1]
    | succ n ih => rw [(hex c).choose_spec.2.2, (hex 0).choose_spec.2.2, ih]
  exact ⟨fun c n => by rw [← hsame c n]; exact ((hex c).choose_spec.1 n).1, fun c n => ((hex c).choose_spec.1 n).2,
    (hex 0).choose_spec.2.1, (hex 0).choose_spec.2.2⟩

/-- A host's next request. -/
theorem host_turn {c : Nat} {busid : Bytes} {devid : UInt32} {d : Nat → Driver} (ha : Alongside e c busid devid d) {n : Nat}
    {ls : List (MachineLabel (HandlerId → τ))} {L : List (Bytes × Handled)} (ht : Told e c n ls L) {x : Conn}
    (hx : (behindNet env p devices w ls).sys.conns c = some x) (hr : x.status = .running) :
    (∀ cmd rest, readCommand p x.input = .ok (cmd, rest) → (L = [] → cmd = .reqImport 0 busid) ∧ (L ≠ [] → isImport cmd = false)) ∧
    ((behindNet env p devices w ls).ended c = none → (behindNet env p devices w ls).ready p c = true →
      ∃ cmd rest, readCommand p x.input = .ok (cmd, rest)) := by
  have hN := ht.log.accepted (told_accepted ht hx)
  have hin := hN.input x hx
  rw [if_pos hr] at hin
  have hin2 := hin.trans (ha.speaks n)
  have hws : ∀ q ∈ (d n).said, WellFormed p.debugAssertions q := fun q hq => wellFormed_weaken (ha.wellFormed n q hq)
  constructor
  · intro cmd rest h
    obtain ⟨used, hu, hu2, _⟩ := framed_readCommand p _ _ _ h
    have hbytes : x.input.bytes = used ++ rest.bytes := by rw [hu]
    have := (reads_prefix (p := p) (L.map (fun e => (e.1, e.2.1)) ++ [(used, cmd)]) (d n).said
        (fun g hg => by
          rcases List.mem_append.mp hg with hg | hg
          · obtain ⟨e', he', rfl⟩ := List.mem_map.mp hg
            exact hN.reads e' he'
          · rw [List.mem_singleton.mp hg]; exact hu2)
        hws (by
          refine List.IsPrefix.trans ?_ hin2
          rw [List.flatMap_append, List.flatMap_map, hbytes, ← List.append_assoc]
          simp)).1
    obtain ⟨cs, hcs, hni⟩ := (alongside_asks ha n).prefix this
    cases L with
    | nil =>
      simp only [List.map_nil, List.nil_append, List.map_cons, List.cons_prefix_cons] at hcs
      exact ⟨fun _ => hcs.1, fun h => absurd rfl h⟩
    | cons g t =>
      simp only [List.map_cons, List.cons_append, List.cons_prefix_cons] at hcs
      exact ⟨fun h => (nomatch h), fun _ => hni cmd (hcs.2.subset (by simp))⟩
  · intro he hrdy
    have hd : (readCommand p : Rd Arrived Cmd) ⟨x.input.bytes⟩ ≠ .diverge := by
      intro hd
      simp [Net.ready, hx, he, hd] at hrdy
    have hpre : L.flatMap (·.1) <+: (d n).said.flatMap wireCmd := (List.prefix_append _ _).trans hin2
    have h2 := (reads_prefix (p := p) (L.map (fun e => (e.1, e.2.1))) (d n).said
        (fun g hg => by
          obtain ⟨e', he', rfl⟩ := List.mem_map.mp hg
          exact hN.reads e' he') hws (by rw [List.flatMap_map]; exact hpre)).2
    obtain ⟨t, htl⟩ := hin2
    have h3 := h2 (x.input.bytes ++ t) (by rw [List.flatMap_map, ← htl, List.append_assoc])
    obtain ⟨cmd, rest, cs, g1, _⟩ := reads_request (p := p) (bs := x.input.bytes) (more := t)
      (cmds := (d n).said.drop (L.map (fun e => (e.1, e.2.1))).length) (fun q hq => hws q (List.mem_of_mem_drop hq)) (by rw [h3]; exact List.prefix_refl _) hd
    have h1 := early_readCommand p x.input.bytes
    rw [g1] at h1
    have := h1 [] x.input.fin
    rw [List.append_nil, List.append_nil] at this
    exact ⟨cmd, _, this⟩

theorem turns {ls : Nat → List (MachineLabel (HandlerId → τ))} {L : Nat → Nat → List (Bytes × Handled)} (hA : AllTold e ls L)
    (ha : ∀ c, H c → Alongside e c (busid c) (devid c) (d c)) (hE : ∀ c, H c → Exported e devices dev (busid c)) (n : Nat) :
    Turns p H dev (behindNet env p devices w (ls n)) (fun c => L c n) where
  next := fun c hc x hx hr cmd rest hrd => by
    obtain ⟨h1, h2⟩ := (host_turn (ha c hc) (hA.told c n) hx hr).1 cmd rest hrd
    exact ⟨fun h => ⟨busid c, h1 h, (hE c hc).named.symm⟩, h2⟩
  whole := fun c hc x hx hr => (host_turn (ha c hc) (hA.told c n) hx hr).2

/-- What one step makes of a client's requests. -/
theorem AllTold.step {ls : Nat → List (MachineLabel (HandlerId → τ))} {L : Nat → Nat → List (Bytes × Handled)} (hA : AllTold e ls L)
    (n : Nat) : (behindNet env p devices w (ls (n + 1)) = behindNet env p devices w (ls n) ∧
      devicesBy e.label devices (n + 1) = devicesBy e.label devices n ∧ ∀ c, L c (n + 1) = L c n) ∨
    (∃ lb ev, e.label n = some (.inner lb) ∧ tcpEvent lb = some ev ∧
      devicesBy e.label devices (n + 1) = gave (devicesBy e.label devices n) ev ∧
      behindNet env p devices w (ls (n + 1)) = (behindNet env p devices w (ls n)).step env p ev ∧
      ∀ c, L c (n + 1) = L c n ++ made env p c (behindNet env p devices w (ls n)) ev) ∨
    (∃ evs, (∀ ev ∈ evs, (∀ d, ev ≠ .addDevice d) ∧ (∀ i, ev ≠ .removeDevice i) ∧ ∀ k wr, ev ≠ .iterate k wr) ∧
      devicesBy e.label devices (n + 1) = devicesBy e.label devices n ∧ behindNet env p devices w (ls (n + 1)) = (behindNet env p devices w (ls n)).run env p evs ∧ ∀ c, L c (n + 1) = L c n) := by
  have hL : ∀ c, L c (n + 1) = L c n ++ madeBy env p c (behindNet env p devices w (ls n))
      (((e.label n).toList.flatMap toServer).filterMap tcpEvent) := by
    intro c
    rw [(hA.told c (n + 1)).made, hA.succ n, List.flatMap_append, List.filterMap_append, madeBy_append, ← (hA.told c n).made]
  cases hlab : e.label n with
  | none =>
    refine .inl ⟨by rw [hA.succ n, hlab]; simp, by simp only [devicesBy, hlab, addedIn, List.append_nil], fun c => ?_⟩
    rw [hL c, hlab]; simp [madeBy]
  | some ml =>
    have e1 : ls (n + 1) = ls n ++ [ml] := by rw [hA.succ n, hlab]; rfl
    have e2 : [ml].flatMap toServer = toServer ml := by simp
    rw [hlab] at hL
    simp only [Option.toList, e2] at hL
    rw [e1, behindNet_snoc]
    rcases label_events ml with ⟨lb, ev, rfl, h1, h2⟩ | ⟨hall, hno⟩
    · refine .inr (.inl ⟨lb, ev, rfl, h1, by rw [devicesBy, hlab, gave_event h1], by rw [h2]; rfl, fun c => ?_⟩)
      rw [hL c, h2]; simp [madeBy]
    · refine .inr (.inr ⟨_, hall, by rw [devicesBy, hlab, hno, List.append_nil], rfl, fun c => ?_⟩)
      rw [hL c]
      have : ∀ (evs : List (NetEvent (HandlerId → τ))) (N : Net (HandlerId → τ)), (∀ ev ∈ evs, ∀ k wr, ev ≠ .iterate k wr) →
          madeBy env p c N evs = [] := by
        intro evs
        induction evs with
        | nil => intro N _; rfl
        | cons ev evs ih =>
          intro N h
          simp only [madeBy, made_else (h ev (List.mem_cons_self ..)), List.nil_append]
          exact ih _ (fun ev' hm => h ev' (List.mem_cons_of_mem _ hm))
      rw [this _ _ (fun ev hev => (hall ev hev).2.2), List.append_nil]

theorem contest {ls : Nat → List (MachineLabel (HandlerId → τ))} {L : Nat → Nat → List (Bytes × Handled)} (hA : AllTold e ls L)
    (ha : ∀ c, H c → Alongside e c (busid c) (devid c) (d c)) (hE : ∀ c, H c → Exported e devices dev (busid c)) {c0 : Nat} (h0 : H c0)
    (n : Nat) : Contest (devicesBy e.label devices n) dev H (behindNet env p devices w (ls n)) (fun c => L c n) := by
  obtain ⟨_, hG⟩ := hE c0 h0
  induction n with
  | zero =>
    have hL : ∀ c, L c 0 = [] := by
      intro c
      have := (hA.told c 0).made
      rw [hA.zero] at this
      exact this
    have hng : ∀ c, ¬ GivenBy dev (L c 0) := by
      rintro c ⟨g, t, e, _⟩
      rw [hL c] at e; cases e
    rw [hA.zero]
    exact ⟨Stock.init devices w, fun c _ hg => absurd hg (hng c), fun c _ hg => absurd hg (hng c), fun c1 c2 _ _ _ hg => absurd hg (hng c1)⟩
  | succ n ih =>
    have hG' := hG (n + 1)
    rcases hA.step n with ⟨e1, e0, e2⟩ | ⟨lb, ev, hl, hev, e0, e1, e2⟩ | ⟨evs, hall, e0, e1, e2⟩
    · simp only [e0, e1, e2]; exact ih
    · rw [e0] at hG'
      simp only [e0, e1, e2]
      exact ih.event ev hG' (fun _ _ _ => turns hA ha hE n)
    · simp only [e0, e1, e2]
      exact ih.events (hG n) evs (fun ev h => ⟨(hall ev h).1, (hall ev h).2.2⟩)

theorem placed {ls : Nat → List (MachineLabel (HandlerId → τ))} {L : Nat → Nat → List (Bytes × Handled)} (hA : AllTold e ls L)
    (ha : ∀ c, H c → Alongside e c (busid c) (devid c) (d c)) (hE : ∀ c, H c → Exported e devices dev (busid c))
    (hpath : dev.path.length ≤ 256) (hW : WantedBy e H dev.busId) {c0 : Nat} (h0 : H c0) (n : Nat) :
    Placed (devicesBy e.label devices n) dev H (behindNet env p devices w (ls n)) (fun c => L c n) := by
  obtain ⟨hname, hG⟩ := hE c0 h0
  have hid : dev.busId.length ≤ 32 := by
    rw [hname, ← (ha c0 h0).busid]
    exact (List.takeWhile_prefix _).length_le
  induction n with
  | zero =>
    rw [hA.zero]
    refine ⟨?_, fun c x hx => by cases hx⟩
    by_cases h : dev ∈ devices
    · exact .inr (.inl h)
    · exact .inl h
  | succ n ih =>
    have hC := contest hA ha hE h0 n
    have hG' := hG (n + 1)
    rcases hA.step n with ⟨e1, e0, e2⟩ | ⟨lb, ev, hl, hev, e0, e1, e2⟩ | ⟨evs, hall, e0, e1, e2⟩
    · simp only [e0, e1, e2]; exact ih
    · rw [e0] at hG'
      simp only [e0, e1, e2]
      exact ih.event hpath hid hC.stock ev hG' (fun _ _ _ => turns hA ha hE n)
        (fun hd => hW.kept n lb hl (by rw [hev, hd]))
        (fun k wr _ hk x hx hr cmd rest st b hrd hc => elsewhere_of (hW.others k hk) (hA.told k n) hx hr hrd hc)
    · simp only [e0, e1, e2]
      exact ih.events (hG n) hpath hid evs hC hall

/-- The logs of the hosts. -/
theorem AllTold.exchanged {ls : Nat → List (MachineLabel (HandlerId → τ))} {L : Nat → Nat → List (Bytes × Handled)} (hA : AllTold e ls L)
    (hb : Behaves code env) (ha : ∀ c, H c → Alongside e c (busid c) (devid c) (d c)) {c : Nat} (hc : H c) :
    Exchanged e c (d c) (fun n => (L c n).map (·.2)) :=
  exchanged_told hb (ha c hc) (fun n => (ls n, L c n)) (fun n => ⟨hA.told c n, hA.grows c n⟩)

theorem AllTold.mono {ls : Nat → List (MachineLabel (HandlerId → τ))} {L : Nat → Nat → List (Bytes × Handled)} (hA : AllTold e ls L)
    (c : Nat) {n m : Nat} (h : n ≤ m) : L c n <+: L c m := by
  induction h with
  | refl => exact List.prefix_refl _
  | step _ ih => exact ih.trans (hA.grows c _)

theorem behind_ended (hb : Behaves code env) {c n : Nat} {ls : List (MachineLabel (HandlerId → τ))} {L : List (Bytes × Handled)}
    (ht : Told e c n ls L) : (behindNet env p devices w ls).ended = (e.state n).whole.ended :=
  (C81_explained code env hb p devices w _ _ ht.inv.whole).2.2.1.symm

theorem ended_later (hb : Behaves code env) {ls : Nat → List (MachineLabel (HandlerId → τ))} {L : Nat → Nat → List (Bytes × Handled)}
    (hA : AllTold e ls L) {c n m : Nat} (h : n ≤ m) (he : (e.state n).whole.ended c ≠ none) : (e.state m).whole.ended c ≠ none := by
  induction h with
  | refl => exact he
  | @step m _ ih =>
    rw [← behind_ended hb (hA.told c m)] at ih
    rw [← behind_ended hb (hA.told c (m + 1))]
    rcases hA.step m with ⟨e1, _⟩ | ⟨lb, ev, _, _, _, e1, _⟩ | ⟨evs, hall, _, e1, _⟩
    · rw [e1]; exact ih
    · rw [e1]; exact ended_step _ _ ih
    · rw [e1]
      clear e1 hall
      generalize behindNet env p devices w (ls m) = N at ih ⊢
      induction evs generalizing N with
      | nil => exact ih
      | cons ev evs ih' => exact ih' (N := N.step env p ev) (ended_step N ev ih)

/-- One host at most has the device. -/
theorem given_once (hb : Behaves code env) {ls : Nat → List (MachineLabel (HandlerId → τ))} {L : Nat → Nat → List (Bytes × Handled)}
    (hA : AllTold e ls L) (ha : ∀ c, H c → Alongside e c (busid c) (devid c) (d c)) (hE : ∀ c, H c → Exported e devices dev (busid c))
    {c1 c2 : Nat} (h1 : H c1) (h2 : H c2) (hne : c1 ≠ c2) (n : Nat) (g1 : GivenBy dev (L c1 n)) (g2 : GivenBy dev (L c2 n)) :
    (e.state n).whole.ended c1 ≠ none ∨ (e.state n).whole.ended c2 ≠ none := by
  rw [← behind_ended hb (hA.told c1 n)]
  exact (contest hA ha hE h1 n).one c1 c2 h1 h2 hne g1 g2

/-- ... and the other one is given it only when this one has hung up. -/
theorem given_after (hb : Behaves code env) {ls : Nat → List (MachineLabel (HandlerId → τ))} {L : Nat → Nat → List (Bytes × Handled)}
    (hA : AllTold e ls L) (ha : ∀ c, H c → Alongside e c (busid c) (devid c) (d c)) (hE : ∀ c, H c → Exported e devices dev (busid c))
    {c1 c2 : Nat} (h1 : H c1) (h2 : H c2) {n m : Nat} (hnm : n ≤ m) (g1 : GivenBy dev (L c1 n)) (g2 : ¬ GivenBy dev (L c2 n))
    (g2' : GivenBy dev (L c2 m)) : (e.state m).whole.ended c1 ≠ none := by
  obtain ⟨hname, hG⟩ := hE c1 h1
  induction hnm with
  | refl => exact absurd g2' g2
  | @step m hm ih =>
    by_cases h : GivenBy dev (L c2 m)
    · exact ended_later hb hA (Nat.le_succ m) (ih h)
    · refine ended_later hb hA (Nat.le_succ m) ?_
      have hC := contest hA ha hE h1 m
      rw [← behind_ended hb (hA.told c1 m)]
      intro he
      have g1' : GivenBy dev (L c1 m) := by
        obtain ⟨t, ht⟩ := hA.mono c1 hm
        rw [← ht]; exact givenBy_append g1
      obtain ⟨o1, _⟩ := hC.gone c1 h1 g1' he
      rcases hA.step m with ⟨_, _, e2⟩ | ⟨lb, ev, hl, hev, _, e1, e2⟩ | ⟨evs, _, _, _, e2⟩
      · rw [e2] at g2'; exact h g2'
      · rw [e2] at g2'
        obtain ⟨_, _, _, l1, l2, _, _, q, _⟩ := newly (hG m) hC.stock h2 (fun _ _ _ => turns hA ha hE m) h g2'
        exact o1 dev (by rw [q]; simp) rfl
      · rw [e2] at g2'; exact h g2'

/-- A host is refused only while another has the device. -/
theorem refused_for (hb : Behaves code env) {ls : Nat → List (MachineLabel (HandlerId → τ))} {L : Nat → Nat → List (Bytes × Handled)}
    (hA : AllTold e ls L) (ha : ∀ c, H c → Alongside e c (busid c) (devid c) (d c)) (hE : ∀ c, H c → Exported e devices dev (busid c))
    (hpath : dev.path.length ≤ 256) (hW : WantedBy e H dev.busId) {c : Nat} (hO : Offered e devices dev c) (hc : H c) {n : Nat} (hn : L c n ≠ [])
    (hg : ¬ GivenBy dev (L c n)) :
    ∃ m, m < n ∧ L c m = [] ∧ L c (m + 1) ≠ [] ∧ ∃ c2, c2 ≠ c ∧ H c2 ∧ GivenBy dev (L c2 m) ∧ Keeps (e.state m) c2 dev := by
  obtain ⟨hname, hG⟩ := hE c hc
  induction n with
  | zero =>
    have := (hA.told c 0).made
    rw [hA.zero] at this
    exact absurd this hn
  | succ n ih =>
    by_cases h0 : L c n = []
    rotate_left
    · have : ¬ GivenBy dev (L c n) := by
        intro h
        obtain ⟨t, ht⟩ := hA.grows c n
        rw [← ht] at hg
        exact hg (givenBy_append h)
      obtain ⟨m, hm, h⟩ := ih h0 this
      exact ⟨m, by omega, h⟩
    refine ⟨n, Nat.lt_succ_self n, h0, hn, ?_⟩
    have hC := contest hA ha hE hc n
    have habs : dev ∉ (behindNet env p devices w (ls n)).sys.shared.available ∧ dev ∈ devicesBy e.label devices n := by
      rcases hA.step n with ⟨_, _, e2⟩ | ⟨lb, ev, hl, hev, _, e1, e2⟩ | ⟨evs, _, _, _, e2⟩
      · rw [e2] at hn; exact absurd h0 hn
      · rw [e2, h0, List.nil_append] at hn hg
        refine ⟨refused_absent (hG n) hC.stock hc (fun _ _ _ => turns hA ha hE n) h0 hn hg, ?_⟩
        obtain ⟨_, x, _, _, _, _, _, _, hx, _⟩ := made_turn hn
        exact hO n (told_accepted (hA.told c n) hx)
      · rw [e2] at hn; exact absurd h0 hn
    have hP := placed hA ha hE hpath hW hc n
    rcases hP.ok with hnot | hav | ⟨c2, hc2, g2, x, hx, hcur⟩
    · exact absurd habs.2 hnot
    · exact absurd hav habs.1
    refine ⟨c2, ?_, hc2, g2, ?_⟩
    · rintro rfl
      obtain ⟨g, t, e, _⟩ := g2
      rw [h0] at e; cases e
    have hacc := told_accepted (hA.told c2 n) hx
    cases hy : (e.state n).whole.fine.cfg.conns c2 with
    | none => exact absurd hy ((hA.told c2 n).accepted hb hacc)
    | some y =>
      refine ⟨y, hy, ?_⟩
      by_cases hr : y.status = .running
      · exact .inl hr
      · right
        have hF := fed hb (ha c2 hc2) (fun n => (ls n, L c2 n)) (fun n => ⟨hA.told c2 n, hA.grows c2 n⟩) n
        have h4 := (C81_explained code env hb p devices w _ _ (hA.told c2 n).inv.whole).2.2.2.1 c2 (hF.rest y hy hr)
        rw [hy, Option.map_some] at h4
        have hx' : (behindNet env p devices w (ls n)).sys.conns c2 = _ := h4
        rw [hx] at hx'
        cases hx'
        refine ⟨hcur, hr, fun hcl => ?_⟩
        have := hP.over c2 _ hx hcl
        rw [hcur] at this; cases this

end

end Usbip
