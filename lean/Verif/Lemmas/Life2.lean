import Verif.Lemmas.Stock
/-! Helper lemmas: the life of a handler object along a history. -/

namespace Usbip
open Spec

/-- The phases of an object's life, as operations: before client `c` got the device, while it had it, and after. -/
structure Phases (α κ : Type) where
  started : Bool
  pre : List (Deed α κ)
  mid : List (Deed α κ)
  post : List (Deed α κ)

/-- All operations. -/
def Phases.all {α κ} (q : Phases α κ) : List (Deed α κ) := q.pre ++ q.mid ++ q.post

/-- How they go on. -/
structure Phases.Then {α κ} (q q' : Phases α κ) : Prop where
  started : q.started = true → q'.started = true ∧ q'.pre = q.pre
  mid : q.mid <+: q'.mid
  post : q.post ≠ [] → q'.post ≠ [] ∧ q'.mid = q.mid

theorem Phases.Then.refl {α κ} (q : Phases α κ) : q.Then q := ⟨fun h => ⟨h, rfl⟩, List.prefix_refl _, fun h => ⟨h, rfl⟩⟩

theorem Phases.Then.trans {α κ} {q q' q'' : Phases α κ} (h : q.Then q') (h' : q'.Then q'') : q.Then q'' :=
  ⟨fun hs => ⟨(h'.started (h.started hs).1).1, (h'.started (h.started hs).1).2.trans (h.started hs).2⟩, h.mid.trans h'.mid,
    fun hp => ⟨(h'.post (h.post hp).1).1, (h'.post (h.post hp).1).2.trans (h.post hp).2⟩⟩

section
variable {τ α β κ ι : Type} {env : Env (HandlerId → τ)} {p : Profile} {o : HandlerId} {key : HCall → Option κ} {tag : κ → ι} {view : τ → β}
  {obj : κ → β → HRes × β} {act : α → β → β} {devices : List Device} {dev : Device} {c : Nat} {b0 : β}

/-- What is true of an object along a history; `devices` is what the server has been given, `L` is what client `c` was answered, `A` what the application has done. -/
structure Life (o : HandlerId) (key : HCall → Option κ) (tag : κ → ι) (view : τ → β) (obj : κ → β → HRes × β) (act : α → β → β)
    (devices : List Device) (dev : Device) (c : Nat) (b0 : β) (N : Net (HandlerId → τ)) (L : List (Bytes × Handled))
    (A : List α) (q : Phases α κ) : Prop where
  stock : Stock devices dev N.sys.shared N.sys.conns
  value : view (N.sys.shared.world.user o) = objNext obj act b0 q.all
  apps : appsOf q.all = A
  alone : (∀ c', c' ≠ c → N.sys.conns c' = none) → ∀ b, objAnswers obj tag act b q.pre = []
  idle : q.started = false → q.mid = [] ∧ q.post = [] ∧ (∀ e ∈ L, (∀ dv, e.2.2.1 ≠ .repImport 0 (some dv)) ∧ outcome e.2 = none) ∧
    ∀ x, N.sys.conns c = some x → x.status = .running → x.current = none
  busy : q.started = true → N.sys.conns c ≠ none ∧ ∃ e0 rest dv, L = e0 :: rest ∧ e0.2.2.1 = .repImport 0 (some dv) ∧
    (∃ last, last.length ≤ 1 ∧ (objAnswers obj tag act (objNext obj act b0 q.pre) q.mid).filterMap replied =
      rest.filterMap (fun e => loggedFor (reachedBy dev key tag) e.2) ++ last) ∧
    ∀ x, N.sys.conns c = some x → x.status = .running → x.current = some dev.busId ∧ q.post = [] ∧
      rest.filterMap (fun e => loggedFor (reachedBy dev key tag) e.2) =
        (objAnswers obj tag act (objNext obj act b0 q.pre) q.mid).filterMap replied ∧
      (∀ a ∈ objAnswers obj tag act (objNext obj act b0 q.pre) q.mid, a.2 ≠ .panic) ∧
      (objAnswers obj tag act (objNext obj act b0 q.pre) q.mid).map (·.1) = rest.filterMap (fun e => reachedBy dev key tag e.2.1)

theorem filterMap_one {γ δ : Type} (f : γ → Option δ) (a : γ) : ([a].filterMap f).length ≤ 1 := List.length_filterMap_le f [a]

/-- Nothing happens to the object, to what was answered, or to the connection of `c`. -/
theorem Life.keep {N N' : Net (HandlerId → τ)} {L : List (Bytes × Handled)} {A : List α} {q : Phases α κ}
    (hl : Life o key tag view obj act devices dev c b0 N L A q) {G : List Device} (hI : Stock G dev N'.sys.shared N'.sys.conns)
    (ho : view (N'.sys.shared.world.user o) = view (N.sys.shared.world.user o))
    (hn : ∀ c', N'.sys.conns c' = none → N.sys.conns c' = none)
    (hc : ∀ x', N'.sys.conns c = some x' → x'.status = .running →
      (N.sys.conns c = none ∧ x'.current = none) ∨
      ∃ x, N.sys.conns c = some x ∧ x.status = .running ∧ x.current = x'.current) :
    Life o key tag view obj act G dev c b0 N' L A q where
  stock := hI
  value := by rw [ho]; exact hl.value
  apps := hl.apps
  alone hh := hl.alone (fun c' h1 => hn c' (hh c' h1))
  idle hs := by
    obtain ⟨h1, h2, h3, h4⟩ := hl.idle hs
    refine ⟨h1, h2, h3, fun x' hx' hr => ?_⟩
    rcases hc x' hx' hr with ⟨_, h⟩ | ⟨x, g1, g2, g3⟩
    · exact h
    · rw [← g3]; exact h4 x g1 g2
  busy hs := by
    obtain ⟨h0, e0, rest, dv, h1, h2, h3, h4⟩ := hl.busy hs
    refine ⟨fun h => h0 (hn c h), e0, rest, dv, h1, h2, h3, fun x' hx' hr => ?_⟩
    rcases hc x' hx' hr with ⟨h, _⟩ | ⟨x, g1, g2, g3⟩
    · exact absurd h h0
    · rw [← g3]; exact h4 x g1 g2

/-- Commands as a Linux host sends them. -/
def Asks (busid : Bytes) (cmds : List Cmd) : Prop :=
  ∃ cs, cmds <+: .reqImport 0 busid :: cs ∧ ∀ q ∈ cs, isImport q = false

/-- An iteration of another connection. -/
theorem Life.other (hS : Works env o view key obj) (hG : Single dev devices)
    (honly : ∀ d ∈ devices, ∀ call k, key call = some k → call.target ∈ handlersOf d → d = dev)
    {N N' : Net (HandlerId → τ)} {L : List (Bytes × Handled)} {A : List α} {q : Phases α κ}
    (hl : Life o key tag view obj act devices dev c b0 N L A q) {c' : Nat} (hne : c' ≠ c) {x : Conn} {wr : WriteRes}
    (hx : N.sys.conns c' = some x) (hr : x.status = .running)
    (hN : N'.sys = { shared := (x.iterate env p N.sys.shared wr).1
                     conns := setConn N.sys.conns c' (x.iterate env p N.sys.shared wr).2 }) :
    ∃ q', Life o key tag view obj act devices dev c b0 N' L A q' ∧ q.Then q' := by
  have hI : Stock devices dev N'.sys.shared N'.sys.conns := by rw [hN]; exact hl.stock.iterate hG c' x hx hr wr
  have hn : ∀ k, N'.sys.conns k = none → N.sys.conns k = none := by
    rw [hN]
    intro k hk
    simp only [setConn] at hk
    split at hk
    · cases hk
    · exact hk
  have hc : N'.sys.conns c = N.sys.conns c := by rw [hN]; exact setConn_ne hne.symm
  have hshared : N'.sys.shared = (x.iterate env p N.sys.shared wr).1 := by rw [hN]
  rcases iterate_served (p := p) (tag := tag) hS N.sys.shared x wr with ⟨dv, call, k, g1, gk, g2, g3, _⟩ | ⟨g1, _⟩
  rotate_left
  · refine ⟨q, hl.keep hI (by rw [hshared]; exact g1) hn (fun x' hx' hr' => .inr ⟨x', hc ▸ hx', hr', rfl⟩), .refl q⟩
  · cases hcur : x.current with
    | none => rw [hcur] at g1; cases g1
    | some id =>
    rw [hcur, Option.bind_some] at g1
    obtain ⟨k1, k2⟩ := hl.stock.device g1
    have hdv := honly dv k1 call k gk g2
    subst hdv
    have hobj : view (N'.sys.shared.world.user o) = objNext obj act b0 (q.all ++ [.urb k]) := by
      rw [hshared, g3, objNext_append, hl.value]
      rfl
    have happ : appsOf (q.all ++ [.urb k]) = A := by
      rw [appsOf_append, hl.apps]; exact List.append_nil A
    cases hs : q.started with
    | false =>
      obtain ⟨h1, h2, h3, h4⟩ := hl.idle hs
      refine ⟨{ q with pre := q.pre ++ [.urb k] }, ⟨hI, ?_, ?_, ?_, ?_, ?_⟩, ?_⟩
      · rw [hobj]; simp only [Phases.all, h1, h2, List.append_nil]
      · rw [← happ]; simp only [Phases.all, h1, h2, List.append_nil]
      · intro hh
        have := hh c' hne
        rw [hN] at this
        simp [setConn] at this
      · intro _; refine ⟨h1, h2, h3, ?_⟩; rw [hc]; exact h4
      · intro hs'; dsimp only at hs'; rw [hs] at hs'; cases hs'
      · exact ⟨fun hs' => (by rw [hs] at hs'; cases hs'), List.prefix_refl _, fun h => ⟨h, rfl⟩⟩
    | true =>
      obtain ⟨h0, e0, rest, dv', h1, h2, h3, h4⟩ := hl.busy hs
      have hdead : ∀ y, N.sys.conns c = some y → y.status ≠ .running := by
        intro y hy hry
        obtain ⟨h5, _⟩ := h4 y hy hry
        exact hl.stock.own c' c x y hne hx hy hr hry (by rw [hcur, ← k2]) h5
      refine ⟨{ q with post := q.post ++ [.urb k] }, ⟨hI, ?_, ?_, ?_, ?_, ?_⟩, ?_⟩
      · rw [hobj]; simp only [Phases.all, List.append_assoc]
      · rw [← happ]; simp only [Phases.all, List.append_assoc]
      · intro hh
        have := hh c' hne
        rw [hN] at this
        simp [setConn] at this
      · intro hs'; dsimp only at hs'; rw [hs] at hs'; cases hs'
      · intro _
        refine ⟨by rw [hc]; exact h0, e0, rest, dv', h1, h2, h3, fun y hy hry => ?_⟩
        rw [hc] at hy
        exact absurd hry (hdead y hy)
      · exact ⟨fun hs' => ⟨hs', rfl⟩, List.prefix_refl _, fun h => ⟨by simp [h], rfl⟩⟩

/-- An iteration of the connection of `c`. -/
theorem Life.own (hS : Works env o view key obj) (hG : Single dev devices) {busid : Bytes} (hname : dev.busId = cstr busid)
    (honly : ∀ d ∈ devices, ∀ call k, key call = some k → call.target ∈ handlersOf d → d = dev)
    {N N' : Net (HandlerId → τ)} {L : List (Bytes × Handled)} {A : List α} {q : Phases α κ}
    (hl : Life o key tag view obj act devices dev c b0 N L A q) {x : Conn} {wr : WriteRes}
    (hx : N.sys.conns c = some x) (hr : x.status = .running)
    (hN : N'.sys = { shared := (x.iterate env p N.sys.shared wr).1
                     conns := setConn N.sys.conns c (x.iterate env p N.sys.shared wr).2 })
    (hq : Asks busid ((L ++ x.made env p N.sys.shared).map (fun e => e.2.1))) :
    ∃ q', Life o key tag view obj act devices dev c b0 N' (L ++ x.made env p N.sys.shared) A q' ∧ q.Then q' := by
  have hI : Stock devices dev N'.sys.shared N'.sys.conns := by rw [hN]; exact hl.stock.iterate hG c x hx hr wr
  have hn : ∀ k, N'.sys.conns k = none → N.sys.conns k = none := by
    rw [hN]
    intro k hk
    simp only [setConn] at hk
    split at hk
    · cases hk
    · exact hk
  have hc : N'.sys.conns c = some (x.iterate env p N.sys.shared wr).2 := by rw [hN]; simp [setConn]
  have hshared : N'.sys.shared = (x.iterate env p N.sys.shared wr).1 := by rw [hN]
  have hmade := iterate_made env p N.sys.shared x wr
  have hserved := iterate_served (p := p) (tag := tag) hS N.sys.shared x wr
  cases hs : q.started with
  | false =>
    obtain ⟨h1, h2, h3, h4⟩ := hl.idle hs
    have hcur := h4 x hx hr
    have ho : view (N'.sys.shared.world.user o) = view (N.sys.shared.world.user o) := by
      rw [hshared]
      rcases hserved with ⟨dv, call, k, g1, _⟩ | ⟨g1, _⟩
      · rw [hcur] at g1; cases g1
      · exact g1
    have stay : (∀ e ∈ x.made env p N.sys.shared, (∀ dv, e.2.2.1 ≠ .repImport 0 (some dv)) ∧ outcome e.2 = none) →
        ((x.iterate env p N.sys.shared wr).2.status = .running → (x.iterate env p N.sys.shared wr).2.current = none) →
        ∃ q', Life o key tag view obj act devices dev c b0 N' (L ++ x.made env p N.sys.shared) A q' ∧ q.Then q' := by
      intro k1 k2
      refine ⟨q, ⟨hI, by rw [ho]; exact hl.value, hl.apps, fun hh => hl.alone (fun c' h => hn c' (hh c' h)), fun _ => ⟨h1, h2, ?_, ?_⟩, ?_⟩, .refl q⟩
      · intro e he
        rcases List.mem_append.mp he with he | he
        · exact h3 e he
        · exact k1 e he
      · intro x' hx' hr'
        rw [hc] at hx'; cases hx'; exact k2 hr'
      · intro hs'; rw [hs] at hs'; cases hs'
    rcases hmade with ⟨g1, g2, _⟩ | ⟨used, cmd, rest, resp, bytes, g1, g2, g3, g4, g5⟩
    · exact stay (by rw [g1]; simp) (fun h => absurd h g2)
    · rcases serve_effect env p N.sys.shared x.current cmd with
        ⟨st, b, d, l1, l2, e1, e2, e3, _, e4⟩ | ⟨st, b, e1, _, e4⟩ | ⟨e1, _, _, e4⟩
      · -- granted
        rw [e4] at g2 g4 g5
        simp only [Outcome.ok.injEq] at g2
        have hL : L = [] ∧ cmd = .reqImport 0 busid := by
          obtain ⟨cs, ⟨t, ht⟩, hcs⟩ := hq
          rw [g3, List.map_append] at ht
          cases hL : L with
          | nil => rw [hL] at ht; simp only [List.map_nil, List.nil_append, List.map_cons, List.cons_append, List.cons.injEq] at ht; exact ⟨rfl, ht.1⟩
          | cons e L' =>
            rw [hL] at ht
            simp only [List.map_cons, List.cons_append, List.cons.injEq, List.map_nil] at ht
            have := hcs cmd (by rw [← ht.2]; simp)
            rw [e1] at this
            cases this
        obtain ⟨rfl, hcmd⟩ := hL
        rw [hcmd] at e1
        cases e1
        have hdid : d.busId = dev.busId := by rw [e3, hname, busidCompare_eq]
        refine ⟨{ q with started := true }, ⟨hI, ?_, hl.apps, fun hh => hl.alone (fun c' h => hn c' (hh c' h)), ?_, ?_⟩, ?_⟩
        · rw [ho]; exact hl.value
        · intro hs'; cases hs'
        · intro _
          refine ⟨by rw [hc]; simp, _, [], d, by rw [g3, List.nil_append], by rw [← g2]; rfl, ⟨[], by simp, by dsimp only; rw [h1]; rfl⟩, fun x' hx' hr' => ?_⟩
          rw [hc] at hx'; cases hx'
          refine ⟨by rw [g5, hdid], h2, ?_, ?_, ?_⟩
          · dsimp only
            rw [h1]; rfl
          · dsimp only
            rw [h1]; simp [objAnswers]
          · dsimp only
            rw [h1]; rfl
        · exact ⟨fun hs' => (by rw [hs] at hs'; cases hs'), List.prefix_refl _, fun h => ⟨h, rfl⟩⟩
      · -- refused
        rw [e4] at g2 g5
        simp only [Outcome.ok.injEq] at g2
        refine stay ?_ (fun _ => g5)
        rw [g3]
        intro e he
        simp only [List.mem_singleton] at he
        subst he
        dsimp only
        rw [← g2, e1]
        exact ⟨fun dv => by simp [opRepImportFail], rfl⟩
      · refine stay ?_ (fun _ => by rw [g5, e4, hcur])
        rw [g3]
        intro e he
        simp only [List.mem_singleton] at he
        subst he
        refine ⟨fun dv hh => ?_, ?_⟩
        · dsimp only at hh
          subst hh
          have := serve_answers env p _ _ _ _ g2
          cases cmd <;> first | (cases e1; done) | simp [Answers] at this
        · cases cmd with
          | submit hd f len sf np iv setup data iso =>
            rw [hcur] at g2
            simp only [Shared.serve, Option.bind_none] at g2
            cases g2
          | _ => rfl
  | true =>
    obtain ⟨h0, e0, rest, dv0, h1, h2, h3, h4⟩ := hl.busy hs
    obtain ⟨hcur, hpost, hall, hnp, hask⟩ := h4 x hx hr
    obtain ⟨dv, hdv⟩ := amGet_of_mem (hl.stock.held c x hx hr hcur)
    have hdev : dv = dev := by
      obtain ⟨k1, k2⟩ := hl.stock.device hdv
      exact single_mem hG k1 k2
    subst hdev
    have hbind : x.current.bind (fun id => amGet id N.sys.shared.used) = some dv := by rw [hcur]; exact hdv
    -- no import
    have hnimp : ∀ e ∈ x.made env p N.sys.shared, isImport e.2.1 = false := by
      intro e he
      obtain ⟨cs, ⟨t, ht⟩, hcs⟩ := hq
      rw [h1, List.map_append] at ht
      simp only [List.map_cons, List.cons_append, List.cons.injEq] at ht
      apply hcs
      rw [← ht.2]
      exact List.mem_append_left _ (List.mem_append_right _ (List.mem_map.mpr ⟨e, he, rfl⟩))
    -- the connection goes on with its device
    have hkeep : (x.iterate env p N.sys.shared wr).2.status = .running →
        (x.iterate env p N.sys.shared wr).2.current = some dv.busId := by
      intro hrun
      rcases hmade with ⟨_, g2, _⟩ | ⟨used, cmd, rest', resp, bytes, g1, g2, g3, g4, g5⟩
      · exact absurd hrun g2
      · have hi := hnimp _ (by rw [g3]; exact List.mem_singleton.mpr rfl)
        dsimp only at hi
        rcases serve_effect env p N.sys.shared x.current cmd with
          ⟨st, b, d, l1, l2, e1, _⟩ | ⟨st, b, e1, _⟩ | ⟨_, _, _, e4⟩
        · rw [e1] at hi; cases hi
        · rw [e1] at hi; cases hi
        · rw [g5, e4, hcur]
    rcases hserved with ⟨dv', call, k, g1, gk, g2, g3, g4⟩ | ⟨g1, g2⟩
    · rw [hbind] at g1; cases g1
      have hall' : q.all = q.pre ++ q.mid := by simp only [Phases.all, hpost, List.append_nil]
      have hans : objAnswers obj tag act (objNext obj act b0 q.pre) (q.mid ++ [.urb k]) =
          objAnswers obj tag act (objNext obj act b0 q.pre) q.mid ++
            [(tag k, (obj k (view (N.sys.shared.world.user o))).1)] := by
        rw [objAnswers_append, ← objNext_append, hl.value, hall']
        rfl
      refine ⟨{ q with mid := q.mid ++ [.urb k] }, ⟨hI, ?_, ?_, fun hh => hl.alone (fun c' h => hn c' (hh c' h)), ?_, ?_⟩, ?_⟩
      · rw [hshared, g3, hl.value]
        simp only [Phases.all, hpost, List.append_nil, ← List.append_assoc]
        rw [objNext_append _ _ _ (q.pre ++ q.mid)]
        rfl
      · rw [← hl.apps]
        simp only [Phases.all, hpost, List.append_nil, ← List.append_assoc]
        rw [appsOf_append (q.pre ++ q.mid)]
        exact List.append_nil _
      · intro hs'; dsimp only at hs'; rw [hs] at hs'; cases hs'
      · intro _
        dsimp only
        rw [hans, List.filterMap_append]
        rcases g4 with ⟨g4, g5⟩ | ⟨g, g4, g5, g6, gp, gr, g7⟩
        · refine ⟨by rw [hc]; simp, e0, rest, dv0, by rw [g4, List.append_nil]; exact h1, h2,
            ⟨_, filterMap_one _ _, by rw [hall]⟩, ?_⟩
          intro x' hx' hr'
          rw [hc] at hx'; cases hx'; exact absurd hr' g5
        · have heq : (rest ++ [g]).filterMap (fun e => loggedFor (reachedBy dv key tag) e.2) =
              List.filterMap replied (objAnswers obj tag act (objNext obj act b0 q.pre) q.mid) ++
              List.filterMap replied [(tag k, (obj k (view (N.sys.shared.world.user o))).1)] := by
            rw [List.filterMap_append, hall]
            congr 1
            simp only [List.filterMap_cons, List.filterMap_nil, g7]
          refine ⟨by rw [hc]; simp, e0, rest ++ [g], dv0, by rw [g4, h1]; rfl, h2, ⟨[], by simp, by rw [heq, List.append_nil]⟩, ?_⟩
          intro x' hx' hr'
          rw [hc] at hx'; cases hx'
          refine ⟨hkeep hr', hpost, heq, fun a ha => ?_, by simp [hask, gr]⟩
          rcases List.mem_append.mp ha with ha | ha
          · exact hnp a ha
          · rw [List.mem_singleton.mp ha]; exact gp
      · exact ⟨fun hs' => ⟨hs', rfl⟩, List.prefix_append _ _, fun h => absurd hpost h⟩
    · have heq : (rest ++ x.made env p N.sys.shared).filterMap (fun e => loggedFor (reachedBy dv key tag) e.2) =
          rest.filterMap (fun e => loggedFor (reachedBy dv key tag) e.2) := by
        rw [List.filterMap_append, List.filterMap_eq_nil_iff.mpr (fun e he => (g2 e he dv hbind).1), List.append_nil]
      refine ⟨q, ⟨hI, by rw [hshared, g1]; exact hl.value, hl.apps, fun hh => hl.alone (fun c' h => hn c' (hh c' h)), ?_, ?_⟩, .refl q⟩
      · intro hs'; rw [hs] at hs'; cases hs'
      · intro _
        refine ⟨by rw [hc]; simp, e0, rest ++ x.made env p N.sys.shared, dv0, by rw [h1]; rfl, h2, by rw [heq]; exact h3, ?_⟩
        intro x' hx' hr'
        rw [hc] at hx'; cases hx'
        exact ⟨hkeep hr', hpost, by rw [heq]; exact hall, hnp, by
          rw [hask, List.filterMap_append, List.filterMap_eq_nil_iff.mpr (fun e he => (g2 e he dv hbind).2), List.append_nil]⟩

theorem stock_conns {σ} {G : List Device} {sh : Shared σ} {conns conns' : Nat → Option Conn} (hI : Stock G dev sh conns)
    (h : ∀ c x', conns' c = some x' → x'.status = .running → x'.current = none ∨
      ∃ x, conns c = some x ∧ x.status = .running ∧ x.current = x'.current) : Stock G dev sh conns' := by
  refine ⟨hI.once, hI.devs, hI.keyed, fun c x' h1 h2 h3 => ?_, fun c1 c2 x1 x2 hne h1 h2 h3 h4 h5 h6 => ?_⟩
  · rcases h c x' h1 h2 with g | ⟨x, g1, g2, g3⟩
    · rw [g] at h3; cases h3
    · exact hI.held c x g1 g2 (by rw [g3]; exact h3)
  · rcases h c1 x1 h1 h3 with g | ⟨y1, g1, g2, g3⟩
    · rw [g] at h5; cases h5
    · rcases h c2 x2 h2 h4 with k | ⟨y2, k1, k2, k3⟩
      · rw [k] at h6; cases h6
      · exact hI.own c1 c2 y1 y2 hne g1 k1 g2 k2 (by rw [g3]; exact h5) (by rw [k3]; exact h6)

/-- What happens to the connections, and nothing else. -/
theorem Life.conns {N N' : Net (HandlerId → τ)} {L : List (Bytes × Handled)} {A : List α} {q : Phases α κ}
    (hl : Life o key tag view obj act devices dev c b0 N L A q) (hs : N'.sys.shared = N.sys.shared)
    (hn : ∀ c', N'.sys.conns c' = none → N.sys.conns c' = none)
    (hc : ∀ k x', N'.sys.conns k = some x' → x'.status = .running →
      (N.sys.conns k = none ∧ x'.current = none) ∨
      ∃ x, N.sys.conns k = some x ∧ x.status = .running ∧ x.current = x'.current) :
    Life o key tag view obj act devices dev c b0 N' L A q := by
  refine hl.keep ?_ (by rw [hs]) hn (hc c)
  rw [hs]
  exact stock_conns hl.stock (fun k x' h1 h2 => (hc k x' h1 h2).imp (fun h => h.2) id)

/-- One connection changes. -/
theorem Life.one {N N' : Net (HandlerId → τ)} {L : List (Bytes × Handled)} {A : List α} {q : Phases α κ}
    (hl : Life o key tag view obj act devices dev c b0 N L A q) (hs : N'.sys.shared = N.sys.shared) {k : Nat} {y : Conn}
    (hk : N'.sys.conns = setConn N.sys.conns k y)
    (hc : y.status = .running → (N.sys.conns k = none ∧ y.current = none) ∨
      ∃ x, N.sys.conns k = some x ∧ x.status = .running ∧ x.current = y.current) :
    Life o key tag view obj act devices dev c b0 N' L A q := by
  refine hl.conns hs (fun c' h => ?_) (fun k' x' h1 h2 => ?_)
  · rw [hk] at h
    simp only [setConn] at h
    split at h
    · cases h
    · exact h
  · rw [hk] at h1
    simp only [setConn] at h1
    split at h1
    · rename_i e; cases h1; subst e; exact hc h2
    · exact .inr ⟨x', h1, h2, rfl⟩

/-- One event that is not the application's. -/
theorem Life.event (hS : Works env o view key obj) {busid : Bytes} (hname : dev.busId = cstr busid)
    (ev : NetEvent (HandlerId → τ)) (hG : Single dev (gave devices ev)) (honly : ∀ d ∈ gave devices ev, ∀ call k, key call = some k → call.target ∈ handlersOf d → d = dev)
    {N : Net (HandlerId → τ)} {L : List (Bytes × Handled)} {A : List α} {q : Phases α κ}
    (hl : Life o key tag view obj act devices dev c b0 N L A q) (hu : ∀ f cr, ev ≠ .user f cr)
    (hq : Asks busid ((L ++ made env p c N ev).map (fun e => e.2.1))) :
    ∃ q', Life o key tag view obj act (gave devices ev) dev c b0 (N.step env p ev) (L ++ made env p c N ev) A q' ∧ q.Then q' := by
  have hI := hl.stock.event (env := env) (p := p) ev hG
  have keep : ∀ N' : Net (HandlerId → τ), Life o key tag view obj act (gave devices ev) dev c b0 N' L A q →
      ∃ q', Life o key tag view obj act (gave devices ev) dev c b0 N' (L ++ []) A q' ∧ q.Then q' :=
    fun N' h => ⟨q, by rw [List.append_nil]; exact h, .refl q⟩
  cases ev with
  | user f cr => exact absurd rfl (hu f cr)
  | addDevice d =>
    refine keep _ ?_
    exact hl.keep hI rfl (fun _ h => h) (fun x hx hr => .inr ⟨x, hx, hr, rfl⟩)
  | connect k =>
    refine keep _ ?_
    simp only [Net.step, Sys.step]
    cases hk : N.sys.conns k with
    | some y => exact hl
    | none => exact hl.one rfl (k := k) (y := Conn.new ⟨[], .unexpectedEof⟩) rfl (fun _ => .inl ⟨hk, rfl⟩)
  | arrive k bs =>
    refine keep _ ?_
    simp only [Net.step]
    split
    · rename_i x hx he
      exact hl.one rfl (k := k) rfl (fun hr => .inr ⟨x, hx, hr, rfl⟩)
    · exact hl
  | hangup k er =>
    refine keep _ ?_
    simp only [Net.step]
    split
    · rename_i x hx he
      exact hl.one rfl (k := k) rfl (fun hr => .inr ⟨x, hx, hr, rfl⟩)
    · exact hl
  | cancel k =>
    refine keep _ ?_
    simp only [Net.step, Sys.step]
    cases hk : N.sys.conns k with
    | none => exact hl
    | some x =>
      dsimp only
      split
      · exact hl.one rfl (k := k) (y := { x with status := .cancelled }) rfl (fun hr => by cases hr)
      · exact hl
  | removeDevice id =>
    refine keep _ ?_
    refine hl.keep hI ?_ ?_ ?_
    all_goals simp only [Net.step, Sys.step]
    · rcases removeDevice_cases N.sys.shared id with ⟨d, l1, l2, e1, _, _, e2⟩ | ⟨_, _, e2⟩ | ⟨_, _, e2⟩ <;> rw [e2]
    · exact fun _ h => h
    · exact fun x hx hr => .inr ⟨x, hx, hr, rfl⟩
  | iterate k wr =>
    by_cases hready : N.ready p k = true
    rotate_left
    · have hm : made env p c N (.iterate k wr) = [] := by
        simp only [made]
        exact if_neg (fun hn => hready (by rw [hn.1]; exact hn.2))
      rw [hm]
      refine keep _ ?_
      simp only [Net.step, if_neg hready]
      exact hl
    cases hx : N.sys.conns k with
    | none =>
      have hm : made env p c N (.iterate k wr) = [] := by
        simp only [made]
        split
        · rename_i hn; rw [← hn.1, hx]
        · rfl
      rw [hm]
      refine keep _ ?_
      simp only [Net.step, if_pos hready, Sys.step, hx]
      exact hl
    | some x =>
      by_cases hr : x.status = .running
      rotate_left
      · have hm : made env p c N (.iterate k wr) = [] := by
          simp only [made]
          split
          · rename_i hn; rw [← hn.1, hx]; exact if_neg hr
          · rfl
        rw [hm]
        refine keep _ ?_
        simp only [Net.step, if_pos hready, Sys.step, hx, if_neg hr]
        exact hl
      have hN : (N.step env p (.iterate k wr)).sys = { shared := (x.iterate env p N.sys.shared wr).1
                                                       conns := setConn N.sys.conns k (x.iterate env p N.sys.shared wr).2 } := by
        simp only [Net.step, if_pos hready, Sys.step, hx, if_pos hr]
      by_cases hk : k = c
      · subst hk
        have hm : made env p k N (.iterate k wr) = x.made env p N.sys.shared := by
          simp only [made, hready, and_self, if_true, hx, hr]
        rw [hm] at hq ⊢
        exact hl.own hS hG hname honly hx hr hN hq
      · have hm : made env p c N (.iterate k wr) = [] := by
          simp only [made]
          exact if_neg (fun hn => hk hn.1)
        rw [hm, List.append_nil]
        exact hl.other hS hG honly hk hx hr hN

theorem Asks.prefix {busid : Bytes} {l l' : List Cmd} (h : Asks busid l') (hp : l <+: l') : Asks busid l := by
  obtain ⟨cs, h1, h2⟩ := h
  exact ⟨cs, hp.trans h1, h2⟩

/-- Several events. -/
theorem Life.events (hS : Works env o view key obj) {busid : Bytes} (hname : dev.busId = cstr busid) {A : List α}
    (evs : List (NetEvent (HandlerId → τ))) : ∀ {devices : List Device} {N : Net (HandlerId → τ)} {L : List (Bytes × Handled)} {q : Phases α κ},
    Life o key tag view obj act devices dev c b0 N L A q →
    Single dev (evs.foldl gave devices) →
    (∀ d ∈ evs.foldl gave devices, ∀ call k, key call = some k → call.target ∈ handlersOf d → d = dev) →
    (∀ ev ∈ evs, ∀ f cr, ev ≠ .user f cr) →
    Asks busid ((L ++ madeBy env p c N evs).map (fun e => e.2.1)) →
    ∃ q', Life o key tag view obj act (evs.foldl gave devices) dev c b0 (N.run env p evs) (L ++ madeBy env p c N evs) A q' ∧ q.Then q' := by
  induction evs with
  | nil => intro G N L q hl _ _ _ _; exact ⟨q, by simpa [madeBy, Net.run] using hl, .refl q⟩
  | cons ev evs ih =>
    intro G N L q hl hG honly he hq
    have hq1 : Asks busid ((L ++ made env p c N ev).map (fun e => e.2.1)) := by
      refine hq.prefix ?_
      simp only [madeBy, ← List.append_assoc, List.map_append]
      exact List.prefix_append _ _
    obtain ⟨q1, hl1, t1⟩ := hl.event hS hname ev (single_prefix hG (gaves_prefix evs _))
      (fun d hd => honly d ((gaves_prefix evs _).subset hd)) (he ev (by simp)) hq1
    obtain ⟨q2, hl2, t2⟩ := ih hl1 hG honly (fun e h => he e (by simp [h])) (by simpa only [madeBy, List.append_assoc] using hq)
    refine ⟨q2, ?_, t1.trans t2⟩
    simpa only [madeBy, List.append_assoc, Net.run, List.foldl_cons] using hl2

/-- The application has used the object. -/
theorem Life.used {N : Net (HandlerId → τ)} {L : List (Bytes × Handled)} {A : List α} {q : Phases α κ}
    (hl : Life o key tag view obj act devices dev c b0 N L A q) (f : (HandlerId → τ) → HandlerId → τ) (cr : Option HandlerId)
    (acts : List α)
    (hf : view (f N.sys.shared.world.user o) =
      acts.foldl (fun b x => act x b) (view (N.sys.shared.world.user o))) :
    ∃ q', Life o key tag view obj act devices dev c b0 (N.step env p (.user f cr)) (L ++ made env p c N (.user f cr)) (A ++ acts) q' ∧
      q.Then q' := by
  rw [show made env p c N (.user f cr) = [] from rfl, List.append_nil]
  have huser : (N.step env p (.user f cr)).sys.shared.world.user = f N.sys.shared.world.user := by
    simp only [Net.step, Sys.step, World.used]
    cases cr <;> simp [poison_user]
  have hlists : onServer (N.step env p (.user f cr)).sys.shared = onServer N.sys.shared := rfl
  have hconns : (N.step env p (.user f cr)).sys.conns = N.sys.conns := rfl
  have hI : Stock devices dev (N.step env p (.user f cr)).sys.shared (N.step env p (.user f cr)).sys.conns :=
    ⟨hl.stock.once, hl.stock.devs, hl.stock.keyed, hl.stock.held, hl.stock.own⟩
  have hobj : view ((N.step env p (.user f cr)).sys.shared.world.user o) =
      objNext obj act b0 (q.all ++ acts.map .app) := by
    rw [huser, hf, hl.value, objNext_append, objNext_apps]
  have happ : appsOf (q.all ++ acts.map .app) = A ++ acts := by
    rw [appsOf_append, hl.apps, appsOf_apps]
  cases hs : q.started with
  | false =>
    obtain ⟨h1, h2, h3, h4⟩ := hl.idle hs
    refine ⟨{ q with pre := q.pre ++ acts.map .app }, ⟨hI, ?_, ?_, ?_, ?_, ?_⟩, ?_⟩
    · rw [hobj]; simp only [Phases.all, h1, h2, List.append_nil]
    · rw [← happ]; simp only [Phases.all, h1, h2, List.append_nil]
    · intro hh b
      dsimp only
      rw [objAnswers_append, hl.alone hh b, objAnswers_apps]
      rfl
    · intro _; exact ⟨h1, h2, h3, h4⟩
    · intro hs'; dsimp only at hs'; rw [hs] at hs'; cases hs'
    · exact ⟨fun hs' => (by rw [hs] at hs'; cases hs'), List.prefix_refl _, fun h => ⟨h, rfl⟩⟩
  | true =>
    obtain ⟨h0, e0, rest, dv', h1, h2, h3, h4⟩ := hl.busy hs
    by_cases hrun : ∃ x, N.sys.conns c = some x ∧ x.status = .running
    · obtain ⟨x, hx, hr⟩ := hrun
      obtain ⟨k1, k2, k3⟩ := h4 x hx hr
      have hans : objAnswers obj tag act (objNext obj act b0 q.pre) (q.mid ++ acts.map .app) =
          objAnswers obj tag act (objNext obj act b0 q.pre) q.mid := by
        rw [objAnswers_append, objAnswers_apps, List.append_nil]
      refine ⟨{ q with mid := q.mid ++ acts.map .app }, ⟨hI, ?_, ?_, hl.alone, ?_, ?_⟩, ?_⟩
      · rw [hobj]; simp only [Phases.all, k2, List.append_nil, List.append_assoc]
      · rw [← happ]; simp only [Phases.all, k2, List.append_nil, List.append_assoc]
      · intro hs'; dsimp only at hs'; rw [hs] at hs'; cases hs'
      · intro _
        refine ⟨h0, e0, rest, dv', h1, h2, by dsimp only; rw [hans]; exact h3, fun x' hx' hr' => ?_⟩
        dsimp only
        rw [hans]
        exact h4 x' hx' hr'
      · exact ⟨fun hs' => ⟨hs', rfl⟩, List.prefix_append _ _, fun h => absurd k2 h⟩
    · refine ⟨{ q with post := q.post ++ acts.map .app }, ⟨hI, ?_, ?_, hl.alone, ?_, ?_⟩, ?_⟩
      · rw [hobj]; simp only [Phases.all, List.append_assoc]
      · rw [← happ]; simp only [Phases.all, List.append_assoc]
      · intro hs'; dsimp only at hs'; rw [hs] at hs'; cases hs'
      · intro _
        exact ⟨h0, e0, rest, dv', h1, h2, h3, fun x' hx' hr' => absurd ⟨x', hx', hr'⟩ hrun⟩
      · exact ⟨fun hs' => ⟨hs', rfl⟩, List.prefix_refl _, fun h => ⟨by simp [h], rfl⟩⟩

end

end Usbip
