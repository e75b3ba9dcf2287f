import Verif.Lemmas.Deadlock
/-! C107: a command that waits for the available devices and a `remove_device` that waits for the used ones stop the
server for good. -/

namespace Usbip
open Spec Samples

/-- C107, nothing is served any more: in any reachable state of the server, let program `t` have the table of used devices
for writing and be about to take the available ones, and program `v` the other way round.  Then, whatever clients,
application and handlers do, for as long as neither of the two is dropped: both stay where they are; no client — old
or new — is sent a single byte; no `add_device` and no `remove_device` takes effect; the tables stay as they are; and no
other program gets either of them. -/
theorem C107_silence {τ} (code : Code τ) (env : Env (HandlerId → τ)) (hb : Behaves code env) (p : Profile)
    (devices : List Device) (w : World (HandlerId → τ)) (ls ls' : List (TcpLabel (HandlerId → τ))) (s s' : Whole code)
    (h : Whole.Reach code env p (Whole.init code devices w) ls s)
    (t v : Nat) (f g : Flight (HandlerId → τ)) (m m' : Mode) (k k' : Task (HandlerId → τ))
    (hf : s.fine.cfg.flights t = some f) (hfc : f.code = .lock .avail m k) (hfu : f.held .used = some .w)
    (hg : s.fine.cfg.flights v = some g) (hgc : g.code = .lock .used m' k') (hga : g.held .avail = some .w)
    (h' : Whole.Reach code env p s ls' s')
    (hd : ∀ o, .server (.dropped t o) ∉ ls' ∧ .server (.dropped v o) ∉ ls') :
    (∃ b, s'.fine.cfg.flights t = some { f with waiting := b }) ∧
    (∃ b, s'.fine.cfg.flights v = some { g with waiting := b }) ∧
    (∀ c, s'.got c = s.got c) ∧
    (∀ q d, .server (.effect q (.addDevice d)) ∉ ls') ∧ (∀ q i, .server (.effect q (.removeDevice i)) ∉ ls') ∧
    s'.fine.cfg.shared.used = s.fine.cfg.shared.used ∧ s'.fine.cfg.shared.available = s.fine.cfg.shared.available ∧
    ∀ q r l, s'.fine.cfg.flights q = some r → r.held l ≠ none → q = t ∨ q = v := by
  obtain ⟨h1, h2, h3, h4, h5, h6, h7⟩ := whole_crossed hb h hf hfc hfu hg hgc hga h' hd
  exact ⟨h1, h2, fun c => congrFun h3 c, fun q d e => (nomatch h7 q _ e), fun q i e => (nomatch h7 q _ e), h4, h5, h6⟩

/-- From waiting for the second lock of an import to having it. -/
theorem import_holds {τ} {code : Code τ} {env : Env (HandlerId → τ)} {p : Profile} {s0 s : Whole code}
    {ls0 : List (TcpLabel (HandlerId → τ))} (h0 : Whole.Reach code env p s0 ls0 s) (t : Nat) (f : Flight (HandlerId → τ))
    (k : Task (HandlerId → τ)) (ht : s.fine.cfg.flights t = some f) (hw : f.waiting = true) (hk : f.code = .lock .used .w k)
    (hin : s.fine.inside t = none) (hq : s.fine.cfg.queue .used = [t])
    (hno : ∀ u g, s.fine.cfg.flights u = some g → g.held .used = none) :
    ∃ s', Whole.Reach code env p s0 (ls0 ++ [.server (.inner t)]) s' ∧
      s'.fine.cfg.flights = upd s.fine.cfg.flights t (some { f with code := k, waiting := false, held := upd f.held .used (some .w) }) ∧
      s'.fine.cfg.queue = upd s.fine.cfg.queue .used [] ∧
      s'.fine.inside = s.fine.inside ∧ s'.fine.cfg.conns = s.fine.cfg.conns ∧ s'.got = s.got ∧
      s'.fine.cfg.shared = s.fine.cfg.shared := by
  have r := h0.tail (.socket _ _ _
    (.other _ _ _ (.grant _ t _ _ _ _ [] ht hk hw hq (fun u g h hu hg => by
      rw [hno u g hu] at hg; cases hg)) (fun _ _ => nofun) (fun _ _ _ => nofun) (fun t' f' k' e hf hk' => by
        cases e; have := ht.symm.trans hf; cases this; rw [hk] at hk'; cases hk')) (fun l e => by cases e; exact id)
          (fun l t' e e' => by cases e; cases e'; exact hin))
  exact ⟨_, r, rfl, rfl, rfl, rfl, rfl, rfl⟩

/-- A `remove_device` of a device that is not available, up to where it needs the used devices. -/
theorem removal_waits {τ} {code : Code τ} {env : Env (HandlerId → τ)} {p : Profile} {s0 s : Whole code}
    {ls0 : List (TcpLabel (HandlerId → τ))} (h0 : Whole.Reach code env p s0 ls0 s) (v : Nat) (i : Bytes)
    (hv : s.fine.cfg.flights v = none) (hin : s.fine.inside v = none) (hq : s.fine.cfg.queue .avail = [])
    (hno : ∀ u g, s.fine.cfg.flights u = some g → g.held .avail = none)
    (hi : ∀ d ∈ s.fine.cfg.shared.available, d.busId ≠ i) :
    ∃ s' g k, Whole.Reach code env p s0
        (ls0 ++ [.server (.start v (.removeDevice i)), .server (.inner v), .server (.inner v), .server (.inner v)]) s' ∧
      s'.fine.cfg.flights v = some g ∧ g.ev = .removeDevice i ∧ g.code = .lock .used .r k ∧ g.held .avail = some .w ∧
      (∀ u, u ≠ v → s'.fine.cfg.flights u = s.fine.cfg.flights u) ∧ s'.got = s.got := by
  have own : ∀ (lb : TcpLabel (HandlerId → τ)) (l : Label (HandlerId → τ)) t', lb = .server (.inner v) ∨ lb = .server (.start v (.removeDevice i)) →
      lb = .server l → prog l = some t' → s.fine.inside t' = none := by
    rintro _ l t' (rfl | rfl) e e' <;> cases e <;> cases e' <;> exact hin
  have r1 := h0.tail (.socket _ _ _ (.other _ _ _ (.remove _ v i hv) (fun _ _ => nofun) (fun _ _ _ => nofun)
    (fun _ _ _ => nofun)) (fun l e => by cases e; exact id) (fun l t' => own _ l t' (.inr rfl)))
  have r2 := r1.tail (.socket _ _ _
    (.other _ _ _ (.request _ v _ _ _ _ (upd_self _ _ _) rfl rfl) (fun _ _ => nofun) (fun _ _ _ => nofun) (fun t' f k e hf hk => by
      cases e
      have : some _ = some f := (upd_self _ _ _).symm.trans hf
      cases this; cases hk)) (fun l e => by cases e; exact id) (fun l t' => own _ l t' (.inl rfl)))
  have r3 := r2.tail (.socket _ _ _
    (.other _ _ _ (.grant _ v _ _ _ _ [] (upd_self _ _ _) rfl rfl (by simp [upd_self, Whole.tcp, Cfg.put, hq]) (fun u g h hu hg => by
      by_cases e : u = v
      · subst e
        have : some _ = some g := (upd_self _ _ _).symm.trans hu
        cases this; cases hg
      · have : s.fine.cfg.flights u = some g := by simpa [Whole.tcp, Cfg.put, upd, e] using hu
        rw [hno u g this] at hg; cases hg)) (fun _ _ => nofun) (fun _ _ _ => nofun) (fun t' f k e hf hk => by
      cases e
      have : some _ = some f := (upd_self _ _ _).symm.trans hf
      cases this; cases hk)) (fun l e => by cases e; exact id) (fun l t' => own _ l t' (.inl rfl)))
  have r4 := r3.tail (.socket _ _ _
    (.other _ _ _ (.getAvail _ v _ _ (upd_self _ _ _) rfl) (fun _ _ => nofun) (fun _ _ _ => nofun) (fun t' f k e hf hk => by
      cases e
      have : some _ = some f := (upd_self _ _ _).symm.trans hf
      cases this; cases hk)) (fun l e => by cases e; exact id) (fun l t' => own _ l t' (.inl rfl)))
  have hT : takeFirst i s.fine.cfg.shared.available = none := by
    rw [takeFirst_none]; exact hi
  rw [List.append_assoc, List.append_assoc, List.append_assoc] at r4
  refine ⟨_, _, .commit id fun _ => .getUsed fun u => .unlock .used <| .unlock .avail <|
    .done (.call (if u.any (fun e => e.2.busId == i) then .err .other else .err .notFound)), r4, upd_self _ _ _, rfl, ?_, rfl,
    fun u hu => ?_, rfl⟩
  · simp only [Cfg.put, Whole.tcp, hT]
  · simp [Cfg.put, Whole.tcp, upd_ne _ _ hu]

/-- C107, it takes one request and one call: whenever nothing is in progress, a new client that asks for a device — any,
be it there or not — and an application that at this moment calls `remove_device` for a device that is not available bring
about the state of `C107_silence`. -/
theorem C107_anyone {τ} (code : Code τ) (env : Env (HandlerId → τ)) (hb : Behaves code env) (p : Profile)
    (devices : List Device) (w : World (HandlerId → τ)) (ls : List (TcpLabel (HandlerId → τ))) (s : Whole code)
    (h : Whole.Reach code env p (Whole.init code devices w) ls s) (hno : ∀ u, s.fine.cfg.flights u = none)
    (c : Nat) (hc : s.fine.cfg.conns c = none) (busid : Bytes) (hlen : busid.length = 32)
    (i : Bytes) (hi : ∀ d ∈ s.fine.cfg.shared.available, d.busId ≠ i) (t v : Nat) (hne : v ≠ t) :
    ∃ ls' s' f g k k', Whole.Reach code env p s ls' s' ∧
      (s'.fine.cfg.flights t = some f ∧ f.owner = some c ∧ f.code = .lock .avail .w k ∧ f.held .used = some .w) ∧
      (s'.fine.cfg.flights v = some g ∧ g.ev = .removeDevice i ∧ g.code = .lock .used .r k' ∧ g.held .avail = some .w) ∧
      s'.got = s.got ∧
      ls'.filterMap tcpEvent = [.connect c, .arrive c (wireCmd (.reqImport 0 busid))] ∧
      (∀ u o, .server (.dropped u o) ∉ ls') := by
  obtain ⟨hI, w0, _, hr⟩ := whole_reach hb h
  have hT := TInv.reach hr
  obtain ⟨hbuf, hend, _⟩ := hT.fresh c hc
  have hbuf : s.buf c = [] := hbuf
  have hend : s.ended c = none := hend
  have hq : ∀ l, s.fine.cfg.queue l = [] := fun l => List.eq_nil_iff_forall_not_mem.2 fun u hu => by
    obtain ⟨f, _, _, hf, _⟩ := (hT.q.queue l u).1 hu
    have : s.fine.cfg.flights u = some f := hf
    rw [hno u] at this; cases this
  have hins : ∀ u, s.fine.inside u = none := fun u => by
    cases e : s.fine.inside u with
    | none => rfl
    | some j => obtain ⟨f, _, _, hf, _⟩ := hI.call u j e; rw [hno u] at hf; cases hf
  have r1 := Whole.Reach.tail (.refl (s0 := s) (code := code) (env := env) (p := p)) (.socket _ _ _
    (.connect _ c hc) (fun l e => by cases e; exact id) (fun l t' e e' => by cases e; cases e'))
  have r2 := r1.tail (.socket _ _ _ (.arrive _ c (wireCmd (.reqImport 0 busid)) (by simp [Whole.tcp, setConn]) hend)
    nofun nofun)
  obtain ⟨ls5, s5, f, k, r5, hf, hw, hk, ho, hoth, hin5, _, hgot, hl5, ⟨k2, rfl⟩, hh, hsh, hqu⟩ :=
    asked_waits r2 t c busid hlen (hno t) (hins t)
    (by simp [Whole.tcp, setConn]) (fun v g hv => by have : s.fine.cfg.flights v = some g := hv; rw [hno v] at this; cases this)
    (by simp [Whole.tcp, upd_self, hbuf]) (hq .used)
    (fun v g hv => by have : s.fine.cfg.flights v = some g := hv; rw [hno v] at this; cases this)
  have hoth : ∀ u, u ≠ t → s5.fine.cfg.flights u = none := fun u hu => (hoth u hu).trans (hno u)
  have hq5 : s5.fine.cfg.queue = upd s.fine.cfg.queue .used [t] := hqu
  have hin5 : s5.fine.inside = s.fine.inside := hin5
  have hsh : s5.fine.cfg.shared = s.fine.cfg.shared := hsh
  have hgot : s5.got = s.got := hgot
  have held5 : ∀ l u g, s5.fine.cfg.flights u = some g → g.held l = none := fun l u g hu => by
    by_cases e : u = t
    · subst e; rw [hf] at hu; cases hu; exact hh l
    · rw [hoth u e] at hu; cases hu
  obtain ⟨s6, r6, hfl6, hq6, hin6, _, hgot6, hsh6⟩ := import_holds r5 t f _ hf hw hk (by rw [hin5]; exact hins t)
    (by rw [hq5, upd_self]) (held5 .used)
  obtain ⟨s7, g, k', r7, hg, hev, hgc, hga, hoth7, hgot7⟩ := removal_waits r6 v i
    (by rw [hfl6, upd_ne _ _ hne]; exact hoth v hne) (by rw [hin6, hin5]; exact hins v)
    (by rw [hq6, hq5]; simp [upd, hq]) (fun u g hu => by
      rw [hfl6] at hu
      by_cases e : u = t
      · subst e; rw [upd_self] at hu; cases hu; simp [upd, hh]
      · rw [upd_ne _ _ e] at hu; exact held5 .avail u g hu) (by rw [hsh6, hsh]; exact hi)
  refine ⟨_, s7, { f with code := .lock .avail .w k2, waiting := false, held := upd f.held .used (some .w) }, g, k2, k', r7,
    ⟨(hoth7 t hne.symm).trans (by rw [hfl6, upd_self]), ho, rfl, upd_self f.held .used _⟩,
    ⟨hg, hev, hgc, hga⟩, hgot7.trans (hgot6.trans hgot), ?_, ?_⟩
  · simp only [List.filterMap_append]
    rw [show ls5.filterMap tcpEvent = [] from List.filterMap_eq_nil_iff.2 fun lb h => by
      rcases hl5 lb h with rfl | rfl | rfl <;> rfl]
    rfl
  · intro u o hm
    have h5 : TcpLabel.server (.dropped u o) ∉ ls5 := fun h => by
      rcases hl5 _ h with e | e | e <;> cases e
    simp [h5] at hm

/-- C107 from beginning to end, in a server with any devices and any handlers: before anybody has connected, one client asks
for some device while the application removes one that is not there.  From then on no client is ever sent a byte, unless one
of the two tasks is dropped. -/
theorem C107_happens {τ} (code : Code τ) (env : Env (HandlerId → τ)) (hb : Behaves code env) (p : Profile)
    (devices : List Device) (w : World (HandlerId → τ)) (busid : Bytes) (hlen : busid.length = 32)
    (i : Bytes) (hi : ∀ d ∈ devices, d.busId ≠ i) :
    ∃ ls s, Whole.Reach code env p (Whole.init code devices w) ls s ∧
      ls.filterMap tcpEvent = [.connect 0, .arrive 0 (wireCmd (.reqImport 0 busid))] ∧
      ∀ ls' s', Whole.Reach code env p s ls' s' →
        (∀ o, .server (.dropped 0 o) ∉ ls' ∧ .server (.dropped 1 o) ∉ ls') → ∀ c, s'.got c = [] := by
  obtain ⟨ls, s, f, g, k, k', hr, ⟨hf, _, hfc, hfu⟩, ⟨hg, _, hgc, hga⟩, hgot, hev, _⟩ :=
    C107_anyone code env hb p devices w [] _ .refl (fun _ => rfl) 0 rfl busid hlen i hi 0 1 (by decide)
  refine ⟨ls, s, hr, hev, fun ls' s' h' hd c => ?_⟩
  rw [(C107_silence code env hb p devices w ls ls' s s' hr 0 1 f g .w .r k k' hf hfc hfu hg hgc hga h' hd).2.2.1 c, hgot]
  rfl

/-- A concrete case: the server has one device, the client asks for it, and the application removes another one. -/
example : ∃ ls s, Whole.Reach sleeper adderEnv dev (Whole.init sleeper [devA] adderWorld) ls s ∧
    ls.filterMap tcpEvent = [.connect 0, .arrive 0 (wireCmd (.reqImport 0 busA))] ∧
    ∀ ls' s', Whole.Reach sleeper adderEnv dev s ls' s' →
      (∀ o, .server (.dropped 0 o) ∉ ls' ∧ .server (.dropped 1 o) ∉ ls') → ∀ c, s'.got c = [] :=
  C107_happens sleeper adderEnv (fun c u l v r h hr => by simp [sleeper] at hr) dev [devA] adderWorld busA rfl devB.busId
    (by decide)

end Usbip
