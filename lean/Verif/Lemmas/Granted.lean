import Verif.Lemmas.Found
import Verif.Spec.Granted
/-! Helper lemmas: a device nobody else asks for is there when it is asked for. -/

namespace Usbip
open Spec

section
variable {σ : Type} {env : Env σ} {p : Profile} {devices : List Device} {dev : Device} {c : Nat}

/-- Client `c` has been given the device, or it has not yet asked and the device is there, or still to be added. -/
structure Spare (devices : List Device) (dev : Device) (c : Nat) (N : Net σ) (L : List (Bytes × Handled)) : Prop where
  held : Held devices dev c N
  ok : (∃ g t, L = g :: t ∧ g.2.2.1 = .repImport 0 (some dev)) ∨
    (L = [] ∧ (dev ∉ devices ∨ dev ∈ N.sys.shared.available ∨ ∃ x, N.sys.conns c = some x ∧ x.status ≠ .running))

theorem net_ended (N : Net σ) (ev : NetEvent σ) {x : Conn} (hx : N.sys.conns c = some x) (hr : x.status ≠ .running) :
    ∃ y, (N.step env p ev).sys.conns c = some y ∧ y.status ≠ .running := by
  cases ev with
  | addDevice d => exact ⟨x, hx, hr⟩
  | user f cr => exact ⟨x, hx, hr⟩
  | removeDevice id => exact ⟨x, step_ended env p N.sys (.removeDevice id) c x hx hr, hr⟩
  | connect k => exact ⟨x, step_ended env p N.sys (.connect k _) c x hx hr, hr⟩
  | cancel k => exact ⟨x, step_ended env p N.sys (.cancel k) c x hx hr, hr⟩
  | iterate k wr =>
    simp only [Net.step]
    split
    · exact ⟨x, step_ended env p N.sys (.iterate k wr) c x hx hr, hr⟩
    · exact ⟨x, hx, hr⟩
  | arrive k bs =>
    simp only [Net.step]
    split
    · rename_i y hy he
      by_cases hk : c = k
      · subst hk
        rw [hx] at hy; cases hy
        exact ⟨{ x with input := ⟨x.input.bytes ++ bs, x.input.fin⟩ }, (by simp only [setConn, if_true]), hr⟩
      · exact ⟨x, by simp only [setConn_ne hk]; exact hx, hr⟩
    · exact ⟨x, hx, hr⟩
  | hangup k er =>
    simp only [Net.step]
    split
    · rename_i y hy he
      by_cases hk : c = k
      · subst hk
        rw [hx] at hy; cases hy
        exact ⟨{ x with input := ⟨x.input.bytes, er⟩ }, (by simp only [setConn, if_true]), hr⟩
      · exact ⟨x, by simp only [setConn_ne hk]; exact hx, hr⟩
    · exact ⟨x, hx, hr⟩

/-- Serving a request for another device, or none, leaves the device where it is. -/
theorem serve_spare {s : Shared σ} {cur : Option Bytes} {cmd : Cmd} (hc : ∀ st b, cmd = .reqImport st b → cstr b ≠ dev.busId)
    (h : dev ∈ s.available) : dev ∈ (s.serve env p cur cmd).2.1.available := by
  rcases serve_effect env p s cur cmd with ⟨st1, b1, d1, l1, l2, e1, e2, e3, _, e4⟩ | ⟨st1, b1, e1, _, e4⟩ | ⟨e1, e2, _, _⟩
  · rw [e4]
    have hne : dev ≠ d1 := by
      rintro rfl
      exact hc st1 b1 e1 (by rw [e3, busidCompare_eq])
    rw [e2] at h
    simp only [List.mem_append, List.mem_cons] at h ⊢
    rcases h with h | h | h
    · exact .inl h
    · exact absurd h hne
    · exact .inr h
  · rw [e4]; exact h
  · rw [e2]; exact h

theorem iterate_spare {s : Shared σ} {x : Conn} {wr : WriteRes}
    (hc : ∀ cmd rest st b, readCommand p x.input = .ok (cmd, rest) → cmd = .reqImport st b → cstr b ≠ dev.busId)
    (h : dev ∈ s.available) : dev ∈ (x.iterate env p s wr).1.available := by
  have hi := iterate_res env p s x wr
  generalize (x.iterate env p s wr).1 = s' at hi ⊢
  generalize (x.iterate env p s wr).2 = x' at hi
  cases hi with
  | done e s' hr hrel =>
    unfold Shared.release at hrel
    split at hrel
    · cases hrel; exact h
    · split at hrel
      · cases hrel; exact List.mem_append_left _ h
      · cases hrel
  | missing e hr hrel => exact h
  | readPanic hr => exact h
  | answered cmd rest resp s' cur' bytes hr hs hb hw =>
    have := serve_spare (env := env) (p := p) (cur := x.current) (fun st b => hc cmd rest st b hr) h
    rw [hs] at this; exact this
  | writeFailed cmd rest resp s' cur' bytes n e hr hs hb hw =>
    have := serve_spare (env := env) (p := p) (cur := x.current) (fun st b => hc cmd rest st b hr) h
    rw [hs] at this; exact this
  | writeCut cmd rest resp s' cur' bytes n hr hs hb hw =>
    have := serve_spare (env := env) (p := p) (cur := x.current) (fun st b => hc cmd rest st b hr) h
    rw [hs] at this; exact this
  | servePanic cmd rest hr hs => exact serve_spare (fun st b => hc cmd rest st b hr) h

/-- One event. -/
theorem Spare.event {busid : Bytes} (hname : dev.busId = cstr busid)
    {N : Net σ} {L : List (Bytes × Handled)} (hl : Spare devices dev c N L) (ev : NetEvent σ) (hG : Single dev (gave devices ev))
    (hoff : ∀ wr, ev = .iterate c wr → ∀ x, N.sys.conns c = some x → dev ∈ devices) (hrm : ev ≠ .removeDevice dev.busId)
    (hoth : ∀ k wr, ev = .iterate k wr → k ≠ c → ∀ x, N.sys.conns k = some x → x.status = .running → ∀ cmd rest st b,
      readCommand p x.input = .ok (cmd, rest) → cmd = .reqImport st b → cstr b ≠ dev.busId)
    (hq : Asks busid ((L ++ made env p c N ev).map (fun e => e.2.1))) :
    Spare (gave devices ev) dev c (N.step env p ev) (L ++ made env p c N ev) := by
  have hh := hl.held.event (env := env) (p := p) hname ev hG (fun g hg st b hc => by
    obtain ⟨cs, hp, hcs⟩ := hq
    have hmem : g.2.1 ∈ (Cmd.reqImport 0 busid :: cs) := hp.subset (List.mem_map.mpr ⟨g, List.mem_append_right _ hg, rfl⟩)
    rcases List.mem_cons.mp hmem with h | h
    · rw [h] at hc; cases hc; rfl
    · have := hcs _ h
      rw [hc] at this; cases this)
  refine ⟨hh.1, ?_⟩
  rcases hl.ok with ⟨g, t, rfl, hg⟩ | ⟨rfl, hok⟩
  · exact .inl ⟨g, _, rfl, hg⟩
  rw [List.nil_append] at hq ⊢
  cases hm : made env p c N ev with
  | cons g t =>
    refine .inl ⟨g, t, rfl, ?_⟩
    rw [hm] at hq
    obtain ⟨cs, hp, _⟩ := hq
    simp only [List.map_cons, List.cons_prefix_cons] at hp
    have hcmd := hp.1
    cases ev with
    | iterate k wr =>
      simp only [made] at hm
      split at hm
      rotate_left
      · cases hm
      rename_i hk
      split at hm
      rotate_left
      · cases hm
      rename_i x hx
      split at hm
      rotate_left
      · cases hm
      rename_i hr
      obtain ⟨rfl, hk⟩ := hk
      have hav : dev ∈ N.sys.shared.available := by
        rcases hok with h | h | ⟨x', hx', hr'⟩
        · exact absurd (hoff wr rfl x hx) h
        · exact h
        · rw [hx] at hx'; cases hx'; exact absurd hr hr'
      rcases iterate_made env p N.sys.shared x wr with ⟨g1, _⟩ | ⟨used, cmd, rest, resp, bytes, g1, g2, g3, _⟩
      · rw [g1] at hm; cases hm
      · rw [g3] at hm
        cases hm
        dsimp only at hcmd ⊢
        subst hcmd
        rcases serve_effect env p N.sys.shared x.current (.reqImport 0 busid) with
          ⟨st1, b1, d1, l1, l2, e1, e2, e3, _, e4⟩ | ⟨st1, b1, e1, e2, e4⟩ | ⟨e1, _, _, e4⟩
        · rw [e4] at g2
          cases g2
          cases e1
          rw [single_mem hG (hl.held.stock.avail (d := d1) (by rw [e2]; simp)) (by rw [e3, hname, busidCompare_eq])]
          rfl
        · cases e1
          exact absurd (by rw [hname, busidCompare_eq]) (e2 dev hav)
        · cases e1
    | _ => simp [made] at hm
  | nil =>
    refine .inr ⟨rfl, ?_⟩
    rcases hok with hnot | hav | ⟨x, hx, hr⟩
    · by_cases had : ∃ d, ev = .addDevice d
      · obtain ⟨d, rfl⟩ := had
        by_cases hd : dev ∈ gave devices (.addDevice d : NetEvent σ)
        · have : d = dev := by
            rcases List.mem_append.mp hd with h | h
            · exact absurd h hnot
            · exact (List.mem_singleton.mp h).symm
          subst this
          exact .inr (.inl (List.mem_append_right _ (List.mem_singleton.mpr rfl)))
        · exact .inl hd
      · rw [gave_else (fun d hd => had ⟨d, hd⟩)]; exact .inl hnot
    rotate_left
    · exact .inr (.inr (net_ended N ev hx hr))
    right
    cases ev with
    | addDevice d => exact .inl (List.mem_append_left _ hav)
    | user f cr => exact .inl hav
    | connect k =>
      left
      simp only [Net.step, Sys.step]
      split <;> exact hav
    | arrive k bs =>
      left
      simp only [Net.step]
      split <;> exact hav
    | hangup k er =>
      left
      simp only [Net.step]
      split <;> exact hav
    | cancel k =>
      left
      simp only [Net.step, Sys.step]
      split
      · split <;> exact hav
      · exact hav
    | removeDevice id =>
      left
      simp only [Net.step, Sys.step]
      rcases removeDevice_cases N.sys.shared id with ⟨d, l1, l2, e1, e0, _, e2⟩ | ⟨_, _, e2⟩ | ⟨_, _, e2⟩ <;> rw [e2]
      · have hne : dev ≠ d := by
          rintro rfl
          exact hrm (by rw [e0])
        rw [e1] at hav
        simp only [List.mem_append, List.mem_cons] at hav ⊢
        rcases hav with h | h | h
        · exact .inl h
        · exact absurd h hne
        · exact .inr h
      · exact hav
      · exact hav
    | iterate k wr =>
      simp only [Net.step]
      by_cases hready : N.ready p k = true
      rotate_left
      · rw [if_neg hready]; exact .inl hav
      rw [if_pos hready]
      simp only [Sys.step]
      cases hx : N.sys.conns k with
      | none => exact .inl hav
      | some x =>
        dsimp only
        by_cases hr : x.status = .running
        rotate_left
        · rw [if_neg hr]; exact .inl hav
        rw [if_pos hr]
        by_cases hk : k = c
        · subst hk
          right
          refine ⟨(x.iterate env p N.sys.shared wr).2, (by simp only [setConn, if_true]), ?_⟩
          have hm' : made env p k N (.iterate k wr) = x.made env p N.sys.shared := by
            simp only [made, hready, and_self, if_true, hx, hr]
          rw [hm'] at hm
          rcases iterate_made env p N.sys.shared x wr with ⟨_, g2, _⟩ | ⟨used, cmd, rest, resp, bytes, _, _, g3, _⟩
          · exact g2
          · rw [g3] at hm; cases hm
        · exact .inl (iterate_spare (fun cmd rest st b => hoth k wr rfl hk x hx hr cmd rest st b) hav)

/-- Many events, none of which is an iteration. -/
theorem Spare.events {busid : Bytes} (hname : dev.busId = cstr busid) (hG : Single dev devices)
    (evs : List (NetEvent σ)) : ∀ {N : Net σ} {L : List (Bytes × Handled)}, Spare devices dev c N L →
    (∀ ev ∈ evs, (∀ d, ev ≠ .addDevice d) ∧ ev ≠ .removeDevice dev.busId ∧ ∀ k wr, ev ≠ .iterate k wr) →
    Asks busid ((L ++ madeBy env p c N evs).map (fun e => e.2.1)) →
    Spare devices dev c (N.run env p evs) (L ++ madeBy env p c N evs) := by
  induction evs with
  | nil => intro N L hl _ _; simpa [madeBy, Net.run] using hl
  | cons ev evs ih =>
    intro N L hl h hq
    obtain ⟨h1, h2, h3⟩ := h ev (List.mem_cons_self ..)
    have e1 : L ++ madeBy env p c N (ev :: evs) = (L ++ made env p c N ev) ++ madeBy env p c (N.step env p ev) evs := by
      simp [madeBy]
    rw [e1] at hq ⊢
    have := hl.event hname ev (by rw [gave_else h1]; exact hG) (fun wr he => absurd he (h3 c wr)) h2 (fun k wr he => absurd he (h3 k wr))
      (hq.prefix ((List.prefix_append _ _).map _))
    rw [gave_else h1] at this
    exact ih this (fun ev' hm => h ev' (List.mem_cons_of_mem _ hm)) hq

end

/-! ## The name is in the request -/

/-- An import request that is read has the bus id in it. -/
def Named (x : Rd Stream Cmd) : Prop :=
  ∀ s v s', x s = .ok (v, s') → ∀ st b, v = .reqImport st b → b <:+: s.bytes

theorem named_bind {α} (x : Rd Stream α) (f : α → Rd Stream Cmd) (hx : Framed x) (hf : ∀ a, Named (f a)) : Named (x >>= f) := by
  intro s v s' h st b hv
  rw [rd_bind, Outcome.bind_eq_ok] at h
  obtain ⟨⟨a, s1⟩, h1, h2⟩ := h
  obtain ⟨u1, e1, _, _⟩ := hx _ _ _ h1
  obtain ⟨l, r, hlr⟩ := hf a _ _ _ h2 st b hv
  dsimp only at hlr
  rw [e1]
  exact ⟨u1 ++ l, r, by simp [← hlr]⟩

theorem named_ite {c : Prop} [Decidable c] {x y : Rd Stream Cmd} (hx : Named x) (hy : Named y) : Named (if c then x else y) := by
  split <;> assumption

theorem named_err (e : ErrKind) : Named (rdErr e : Rd Stream Cmd) := by
  intro s a s' h; simp at h

theorem named_pure (v : Cmd) (hv : ∀ st b, v ≠ .reqImport st b) : Named (pure v) := by
  intro s a s' h st b e
  simp only [rd_pure, Outcome.ok.injEq, Prod.mk.injEq] at h
  obtain ⟨rfl, rfl⟩ := h
  exact absurd e (hv st b)

theorem named_import (st : UInt32) : Named (readExact 32 >>= fun b => pure (.reqImport st b)) := by
  intro s v s' h st' b' hv
  rw [rd_bind, Outcome.bind_eq_ok] at h
  obtain ⟨⟨a, s1⟩, h1, h2⟩ := h
  simp only [rd_pure, Outcome.ok.injEq, Prod.mk.injEq] at h2
  obtain ⟨rfl, rfl⟩ := h2
  cases hv
  obtain ⟨_, hs⟩ := stream_readExact_inv h1
  rw [hs]
  exact ⟨[], s1.bytes, by simp⟩

theorem named_readCommand (p : Profile) : Named (readCommand p) := by
  unfold readCommand readSubmit readUnlink readHeader
  repeat' first
    | exact named_import _ | exact named_pure _ (by intro _ _ h; cases h) | exact named_err _
    | exact framed_readU16 | exact framed_readU32 | exact framed_readExact _
    | exact framed_assert _ _ | exact framed_pure _ | exact framed_err _
    | refine named_bind _ _ ?_ ?_ | refine named_ite ?_ ?_
    | refine framed_bind _ _ ?_ ?_ | refine framed_ite ?_ ?_ | intro _

/-! ## The whole process -/

section
variable {τ : Type} {code : Code τ} {env : Env (HandlerId → τ)} {p : Profile} {devices : List Device} {dev : Device}
  {w : World (HandlerId → τ)}
  {e : MachineExec code env p (Machine.init code devices w)} {c : Nat} {busid : Bytes} {devid : UInt32} {d : Nat → Driver}

theorem told_accepted {ls : List (MachineLabel (HandlerId → τ))} {L : List (Bytes × Handled)} {k n : Nat} (ht : Told e k n ls L) {x : Conn}
    (hx : (behindNet env p devices w ls).sys.conns k = some x) : (e.state n).front k = .accepted := by
  have hP : PInv ((Proc.init devices w).run env p (ls.filterMap machineEvent)) := (PInv.init devices w).run _
  rw [← ht.inv.front]
  refine (hP.conn k).mp ?_
  rw [ht.inv.net, hx]
  exact Option.some_ne_none x

/-- What a client that does not ask for a device asks for is not the device. -/
theorem elsewhere_of {k n : Nat} {id : Bytes} (hU : (∃ n, (e.state n).front k = .accepted) →
      (∃ said, Speaks e k said ∧ ∀ n st b, Cmd.reqImport st b ∈ said n → cstr b ≠ id) ∨ ∀ n, ¬ id <:+: arrivedBy e.label k n)
    {ls : List (MachineLabel (HandlerId → τ))} {L : List (Bytes × Handled)} (ht : Told e k n ls L) {x : Conn}
    (hx : (behindNet env p devices w ls).sys.conns k = some x) (hr : x.status = .running) {cmd : Cmd} {rest : Stream} {st : UInt32}
    {b : Bytes} (h : readCommand p x.input = .ok (cmd, rest)) (hc : cmd = .reqImport st b) : cstr b ≠ id := by
  have hacc := told_accepted ht hx
  have hN := ht.log.accepted hacc
  have hin := hN.input x hx
  rw [if_pos hr] at hin
  subst hc
  rcases hU ⟨n, hacc⟩ with ⟨said, hs, ho⟩ | hno
  · obtain ⟨used, hu, hu2, _⟩ := framed_readCommand p _ _ _ h
    obtain ⟨h1, h2⟩ := hs n
    have hbytes : x.input.bytes = used ++ rest.bytes := by rw [hu]
    have := (reads_prefix (p := p) (L.map (fun e => (e.1, e.2.1)) ++ [(used, .reqImport st b)]) (said n)
        (fun g hg => by
          rcases List.mem_append.mp hg with hg | hg
          · obtain ⟨e', he', rfl⟩ := List.mem_map.mp hg
            exact hN.reads e' he'
          · rw [List.mem_singleton.mp hg]; exact hu2)
        (fun q hq => wellFormed_weaken (h1 q hq)) (by
          refine List.IsPrefix.trans ?_ (hin.trans h2)
          rw [List.flatMap_append, List.flatMap_map, hbytes, ← List.append_assoc]
          simp)).1
    refine ho n st b (this.subset ?_)
    simp
  · intro he
    refine hno n ?_
    rw [← he]
    have h1 : cstr b <:+: b := (List.takeWhile_prefix _).isInfix
    refine h1.trans ((named_readCommand p _ _ _ h st b rfl).trans ?_)
    exact List.IsInfix.trans (List.suffix_append _ _).isInfix hin.isInfix

/-- What another client asks for is not the device. -/
theorem elsewhere (hU : Unclaimed e c busid) {k n : Nat} (hk : k ≠ c)
    {ls : List (MachineLabel (HandlerId → τ))} {L : List (Bytes × Handled)} (ht : Told e k n ls L) {x : Conn}
    (hx : (behindNet env p devices w ls).sys.conns k = some x) (hr : x.status = .running) {cmd : Cmd} {rest : Stream} {st : UInt32}
    {b : Bytes} (h : readCommand p x.input = .ok (cmd, rest)) (hc : cmd = .reqImport st b) : cstr b ≠ cstr busid :=
  elsewhere_of (hU.others k hk) ht hx hr h hc

/-- All along a history: the client has been given the device, or it is still there. -/
theorem spare (hb : Behaves code env) (ha : Alongside e c busid devid d) (hE : Exported e devices dev busid)
    (hO : Offered e devices dev c) (hU : Unclaimed e c busid) (f : Nat → List (MachineLabel (HandlerId → τ)) × List (Bytes × Handled))
    (hf : ∀ n, Told e c n (f n).1 (f n).2 ∧ (f n).2 <+: (f (n + 1)).2) (h0 : (f 0).1 = [])
    (hs : ∀ n, (f (n + 1)).1 = (f n).1 ++ (e.label n).toList) (n : Nat) :
    Spare (devicesBy e.label devices n) dev c (behindNet env p devices w (f n).1) (f n).2 := by
  induction n with
  | zero =>
    have hL := (hf 0).1.made
    rw [h0] at hL ⊢
    rw [hL]
    refine ⟨Held.init w, .inr ⟨rfl, ?_⟩⟩
    by_cases h : dev ∈ devices
    · exact .inr (.inl h)
    · exact .inl h
  | succ n ih =>
    have hasks : Asks busid ((f (n + 1)).2.map (fun e => e.2.1)) :=
      (alongside_asks ha (n + 1)).prefix (by
        have := ((hf (n + 1)).1.asked ha).2
        rw [List.map_map] at this
        exact this)
    have hL : (f (n + 1)).2 = (f n).2 ++ madeBy env p c (behindNet env p devices w (f n).1)
        (((e.label n).toList.flatMap toServer).filterMap tcpEvent) := by
      rw [(hf (n + 1)).1.made, hs n, List.flatMap_append, List.filterMap_append, madeBy_append, ← (hf n).1.made]
    cases hlab : e.label n with
    | none =>
      rw [hlab] at hL
      have e1 : (f (n + 1)).1 = (f n).1 := by rw [hs n, hlab]; simp
      have e2 : (f (n + 1)).2 = (f n).2 := by rw [hL]; simp [madeBy]
      have e3 : devicesBy e.label devices (n + 1) = devicesBy e.label devices n := by simp only [devicesBy, hlab, addedIn, List.append_nil]
      rw [e1, e2, e3]; exact ih
    | some ml =>
      rw [hlab] at hL
      have e1 : (f (n + 1)).1 = (f n).1 ++ [ml] := by rw [hs n, hlab]; rfl
      have e2 : [ml].flatMap toServer = toServer ml := by simp
      simp only [Option.toList, e2] at hL
      rw [e1, behindNet_snoc]
      rw [hL] at hasks ⊢
      rcases label_events ml with ⟨lb, ev, rfl, h1, h2⟩ | ⟨hall, hno⟩
      · rw [h2] at hasks ⊢
        have e3 : madeBy env p c (behindNet env p devices w (f n).1) [ev] = made env p c (behindNet env p devices w (f n).1) ev := by
          simp [madeBy]
        have e4 : devicesBy e.label devices (n + 1) = gave (devicesBy e.label devices n) ev := by
          rw [devicesBy, hlab, gave_event h1]
        rw [e3] at hasks ⊢
        rw [e4]
        refine ih.event hE.named ev (by rw [← e4]; exact hE.single (n + 1))
          (fun _ _ x hx => hO n (told_accepted (hf n).1 hx))
          (fun hd => hU.kept n lb hlab (by rw [h1, hd, hE.named])) (fun k wr hev hk x hx hr cmd rest st b hrd hc => ?_) hasks
        obtain ⟨f', hf', h0', hs'⟩ := exists_told hb e k
        have hsame : ∀ m, (f' m).1 = (f m).1 := by
          intro m
          induction m with
          | zero => rw [h0', h0]
          | succ m ih => rw [hs', hs, ih]
        have ht := (hf' n).1
        rw [hsame] at ht
        rw [hE.named]
        exact elsewhere hU hk ht hx hr hrd hc
      · have e4 : devicesBy e.label devices (n + 1) = devicesBy e.label devices n := by rw [devicesBy, hlab, hno, List.append_nil]
        rw [e4]
        exact ih.events hE.named (hE.single n) _ (fun ev hev => ⟨(hall ev hev).1, (hall ev hev).2.1 _, (hall ev hev).2.2⟩) hasks

end

end Usbip
