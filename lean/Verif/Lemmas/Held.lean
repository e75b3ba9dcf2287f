import Verif.Lemmas.Life3
import Verif.Lemmas.Session
/-! Helper lemmas: a client that imports one device is answered by that device. -/

namespace Usbip
open Spec

section
variable {σ : Type} {env : Env σ} {p : Profile} {devices : List Device} {dev : Device} {c : Nat}

/-- What is true of client `c` along a history, if it asks for no other device. -/
structure Held (devices : List Device) (dev : Device) (c : Nat) (N : Net σ) : Prop where
  stock : Stock devices dev N.sys.shared N.sys.conns
  cur : ∀ x, N.sys.conns c = some x → x.status = .running → x.current = none ∨ x.current = some dev.busId

/-- A response to the client comes from the device. -/
def FromDev (env : Env σ) (p : Profile) (dev : Device) : Cmd × Resp → Prop
  | (.submit h _ len _ _ _ setup data _, r) => AnsweredBy env p dev h len setup data r
  | (.reqImport _ _, r) => ∀ st d, r = .repImport st (some d) → d = dev
  | _ => True

theorem Held.mine (hG : Single dev devices) {busid : Bytes} (hname : dev.busId = cstr busid)
    {N : Net σ} (hl : Held devices dev c N) {x : Conn} (hx : N.sys.conns c = some x) (hr : x.status = .running) {cmd : Cmd}
    (hq : ∀ st b, cmd = .reqImport st b → b = busid) {resp : Resp} (h : (N.sys.shared.serve env p x.current cmd).1 = .ok resp) :
    FromDev env p dev (cmd, resp) := by
  cases cmd with
  | reqDevlist st => trivial
  | unlink hd n => trivial
  | reqImport st b =>
    obtain rfl := hq st b rfl
    intro st' d hd
    subst hd
    rcases serve_effect env p N.sys.shared x.current (.reqImport st b) with
      ⟨st1, b1, d1, l1, l2, e1, e2, e3, _, e4⟩ | ⟨st1, b1, e1, _, e4⟩ | ⟨e1, _, _, e4⟩
    · rw [e4] at h
      cases h
      cases e1
      refine single_mem hG (hl.stock.avail (by rw [e2]; simp)) ?_
      rw [e3, hname, busidCompare_eq]
    · rw [e4] at h; cases h
    · cases e1
  | submit hd f len sf np iv setup data iso =>
    show AnsweredBy env p dev hd len setup data resp
    cases hdv : x.current.bind (fun id => amGet id N.sys.shared.used) with
    | none =>
      simp only [Shared.serve, hdv] at h
      cases h
    | some dv =>
      simp only [Shared.serve, hdv] at h
      have : dv = dev := by
        rcases hl.cur x hx hr with h0 | h0
        · rw [h0] at hdv; cases hdv
        · rw [h0, Option.bind_some] at hdv
          obtain ⟨k1, k2⟩ := hl.stock.device hdv
          exact single_mem hG k1 k2
      subst this
      exact submit_answered env p _ _ _ _ _ _ _ h

/-- Nothing happens to the client. -/
theorem Held.keep {N N' : Net σ} (hl : Held devices dev c N) {G : List Device} (hI : Stock G dev N'.sys.shared N'.sys.conns)
    (hc : ∀ x', N'.sys.conns c = some x' → x'.status = .running →
      x'.current = none ∨ ∃ x, N.sys.conns c = some x ∧ x.status = .running ∧ x.current = x'.current) :
    Held G dev c N' := by
  refine ⟨hI, fun x' hx' hr => ?_⟩
  rcases hc x' hx' hr with h | ⟨x, h1, h2, h3⟩
  · exact .inl h
  · rw [← h3]; exact hl.cur x h1 h2

/-- One connection changes, without running. -/
theorem Held.one {N N' : Net σ} (hl : Held devices dev c N) (hs : N'.sys.shared = N.sys.shared) {k : Nat} {y : Conn}
    (hk : N'.sys.conns = setConn N.sys.conns k y)
    (hc : y.status = .running → y.current = none ∨ ∃ x, N.sys.conns k = some x ∧ x.status = .running ∧ x.current = y.current) :
    Held devices dev c N' := by
  have key : ∀ k' x', N'.sys.conns k' = some x' → x'.status = .running →
      x'.current = none ∨ ∃ x, N.sys.conns k' = some x ∧ x.status = .running ∧ x.current = x'.current := by
    intro k' x' h1 h2
    rw [hk] at h1
    simp only [setConn] at h1
    split at h1
    · rename_i e; cases h1; subst e; exact hc h2
    · exact .inr ⟨x', h1, h2, rfl⟩
  refine hl.keep ?_ (key c)
  rw [hs]
  exact stock_conns hl.stock key

/-- One event. -/
theorem Held.event {busid : Bytes} (hname : dev.busId = cstr busid)
    {N : Net σ} (hl : Held devices dev c N) (ev : NetEvent σ) (hG : Single dev (gave devices ev))
    (hq : ∀ e ∈ made env p c N ev, ∀ st b, e.2.1 = .reqImport st b → b = busid) :
    Held (gave devices ev) dev c (N.step env p ev) ∧ ∀ e ∈ made env p c N ev, FromDev env p dev (e.2.1, e.2.2.1) := by
  have hI := hl.stock.event (env := env) (p := p) ev hG
  cases ev with
  | addDevice d =>
    refine ⟨?_, by simp [made]⟩
    exact hl.keep hI (fun x hx hr => .inr ⟨x, hx, hr, rfl⟩)
  | user f cr =>
    refine ⟨?_, by simp [made]⟩
    exact hl.keep hI (fun x hx hr => .inr ⟨x, hx, hr, rfl⟩)
  | connect k =>
    refine ⟨?_, by simp [made]⟩
    simp only [Net.step, Sys.step]
    cases hk : N.sys.conns k with
    | some y => exact hl
    | none => exact hl.one rfl (k := k) (y := Conn.new ⟨[], .unexpectedEof⟩) rfl (fun _ => .inl rfl)
  | arrive k bs =>
    refine ⟨?_, by simp [made]⟩
    simp only [Net.step]
    split
    · rename_i x hx he
      exact hl.one rfl (k := k) rfl (fun hr => .inr ⟨x, hx, hr, rfl⟩)
    · exact hl
  | hangup k er =>
    refine ⟨?_, by simp [made]⟩
    simp only [Net.step]
    split
    · rename_i x hx he
      exact hl.one rfl (k := k) rfl (fun hr => .inr ⟨x, hx, hr, rfl⟩)
    · exact hl
  | cancel k =>
    refine ⟨?_, by simp [made]⟩
    simp only [Net.step, Sys.step]
    cases hk : N.sys.conns k with
    | none => exact hl
    | some x =>
      dsimp only
      split
      · exact hl.one rfl (k := k) (y := { x with status := .cancelled }) rfl (fun hr => by cases hr)
      · exact hl
  | removeDevice id =>
    refine ⟨?_, by simp [made]⟩
    exact hl.keep hI (fun x hx hr => .inr ⟨x, hx, hr, rfl⟩)
  | iterate k wr =>
    by_cases hready : N.ready p k = true
    rotate_left
    · have hm : made env p c N (.iterate k wr) = [] := by
        simp only [made]
        exact if_neg (fun hn => hready (by rw [hn.1]; exact hn.2))
      rw [hm]
      refine ⟨?_, by simp⟩
      simp only [Net.step, if_neg hready]
      exact hl
    cases hx : N.sys.conns k with
    | none =>
      have hm : made env p c N (.iterate k wr) = [] := by
        simp only [made]
        split
        · rename_i hn; rw [← hn.1, hx]
        · rfl
      rw [hm]
      refine ⟨?_, by simp⟩
      simp only [Net.step, if_pos hready, Sys.step, hx]
      exact hl
    | some x =>
      by_cases hr : x.status = .running
      rotate_left
      · have hm : made env p c N (.iterate k wr) = [] := by
          simp only [made]
          split
          · rename_i hn; rw [← hn.1, hx]; exact if_neg hr
          · rfl
        rw [hm]
        refine ⟨?_, by simp⟩
        simp only [Net.step, if_pos hready, Sys.step, hx, if_neg hr]
        exact hl
      have hN : (N.step env p (.iterate k wr)).sys = { shared := (x.iterate env p N.sys.shared wr).1
                                                       conns := setConn N.sys.conns k (x.iterate env p N.sys.shared wr).2 } := by
        simp only [Net.step, if_pos hready, Sys.step, hx, if_pos hr]
      by_cases hk : k = c
      rotate_left
      · have hm : made env p c N (.iterate k wr) = [] := by
          simp only [made]
          exact if_neg (fun hn => hk hn.1)
        rw [hm]
        refine ⟨hl.keep hI (fun x' hx' hr' => .inr ⟨x', ?_, hr', rfl⟩), by simp⟩
        rw [hN] at hx'
        rw [← hx']
        exact (setConn_ne (Ne.symm hk)).symm
      · subst hk
        have hm : made env p k N (.iterate k wr) = x.made env p N.sys.shared := by
          simp only [made, hready, and_self, if_true, hx, hr]
        rw [hm] at hq ⊢
        have hc : (N.step env p (.iterate k wr)).sys.conns k = some (x.iterate env p N.sys.shared wr).2 := by
          rw [hN]; simp [setConn]
        rcases iterate_made env p N.sys.shared x wr with ⟨g1, g2, _⟩ | ⟨used, cmd, rest, resp, bytes, g1, g2, g3, g4, g5⟩
        · rw [g1]
          refine ⟨hl.keep hI (fun x' hx' hr' => ?_), by simp⟩
          rw [hc] at hx'; cases hx'; exact absurd hr' g2
        · rw [g3] at hq ⊢
          have hcmd := hq _ (List.mem_singleton.mpr rfl)
          dsimp only at hcmd
          refine ⟨⟨hI, fun x' hx' hr' => ?_⟩, fun e he => ?_⟩
          · rw [hc] at hx'; cases hx'
            rw [g5]
            rcases serve_effect env p N.sys.shared x.current cmd with
              ⟨st1, b1, d1, l1, l2, e1, e2, e3, _, e4⟩ | ⟨st1, b1, e1, _, e4⟩ | ⟨e1, _, _, e4⟩
            · obtain rfl := hcmd _ _ e1
              rw [e4, e3, hname, busidCompare_eq]
              exact .inr rfl
            · rw [e4]; exact .inl rfl
            · rw [e4]; exact hl.cur x hx hr
          · rw [List.mem_singleton.mp he]
            exact hl.mine hG hname hx hr hcmd g2

/-- Many events. -/
theorem Held.events {busid : Bytes} (hname : dev.busId = cstr busid)
    (evs : List (NetEvent σ)) : ∀ {devices : List Device} {N : Net σ}, Held devices dev c N → Single dev (evs.foldl gave devices) →
    (∀ e ∈ madeBy env p c N evs, ∀ st b, e.2.1 = .reqImport st b → b = busid) →
    ∀ e ∈ madeBy env p c N evs, FromDev env p dev (e.2.1, e.2.2.1) := by
  induction evs with
  | nil => intro G N _ _ _ e he; cases he
  | cons ev evs ih =>
    intro G N hl hG hq e he
    obtain ⟨h1, h2⟩ := hl.event hname ev (single_prefix hG (gaves_prefix evs _)) (fun e he => hq e (List.mem_append_left _ he))
    rcases List.mem_append.mp he with he | he
    · exact h2 e he
    · exact ih h1 hG (fun e he => hq e (List.mem_append_right _ he)) e he

theorem Held.init (w : World σ) : Held devices dev c (Net.init devices w) :=
  ⟨Stock.init devices w, fun x hx => by cases hx⟩

end

section
variable {τ : Type} {code : Code τ} {env : Env (HandlerId → τ)} {p : Profile} {devices : List Device} {dev : Device}
  {w : World (HandlerId → τ)}
  {e : MachineExec code env p (Machine.init code devices w)} {c : Nat} {busid : Bytes} {devid : UInt32} {d : Nat → Driver}

/-- What the server has been given, from the labels told. -/
theorem gave_told {ls : Nat → List (MachineLabel (HandlerId → τ))} (h0 : ls 0 = []) (hs : ∀ n, ls (n + 1) = ls n ++ (e.label n).toList)
    (n : Nat) : (((ls n).flatMap toServer).filterMap tcpEvent).foldl gave devices = devicesBy e.label devices n := by
  induction n with
  | zero => rw [h0]; rfl
  | succ n ih => rw [hs, List.flatMap_append, List.filterMap_append, List.foldl_append, ih, gave_label]; rfl

/-- The log of a host's requests: all answered by its device. -/
theorem fromDevice (ha : Alongside e c busid devid d) (hname : dev.busId = cstr busid)
    (hG : ∀ n, Single dev (devicesBy e.label devices n)) {ls : Nat → List (MachineLabel (HandlerId → τ))} (h0 : ls 0 = [])
    (hs : ∀ n, ls (n + 1) = ls n ++ (e.label n).toList) {n : Nat} {L : List (Bytes × Handled)} (ht : Told e c n (ls n) L) :
    ∀ g ∈ L, FromDev env p dev (g.2.1, g.2.2.1) := by
  have hasks := (alongside_asks ha n).prefix (l := L.map (fun e => e.2.1)) (by
    have := (ht.asked ha).2
    rw [List.map_map] at this
    exact this)
  rw [ht.made] at hasks ⊢
  refine (Held.init w).events hname _ (by rw [gave_told h0 hs]; exact hG n) (fun g hg st b hc => ?_)
  obtain ⟨cs, hp, hcs⟩ := hasks
  have hmem : g.2.1 ∈ (Cmd.reqImport 0 busid :: cs) := hp.subset (List.mem_map.mpr ⟨g, hg, rfl⟩)
  rcases List.mem_cons.mp hmem with h | h
  · rw [h] at hc; cases hc; rfl
  · have := hcs _ h
    rw [hc] at this; cases this

end

end Usbip
