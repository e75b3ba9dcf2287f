import Verif.Lemmas.Locks
/-! Helper lemmas: every interleaving of the lock-level programs is a sequence of server events. -/

namespace Usbip

/-- What the event of a program does to the tables and to the connection it belongs to. -/
def afterEv {σ} (env : Env σ) (p : Profile) (ev : Event σ) (x : Option Conn) (s : Shared σ) :
    Shared σ × Ended :=
  match ev, x with
  | .iterate _ w, some x => ((x.iterate env p s w).1, .conn (x.iterate env p s w).2)
  | .addDevice d, _ => (s.addDevice d, .call (.ok ()))
  | .removeDevice id', _ => ((s.removeDevice id').2, .call (s.removeDevice id').1)
  | _, _ => (s, .call (.ok ()))

/-- Invariant of one program, relating it to the sequential state `S`. -/
structure FInv {σ} (env : Env σ) (p : Profile) (S : Sys σ) (s : Cfg σ) (f : Flight σ) : Prop where
  kind : (∃ c w, f.ev = .iterate c w ∧ f.owner = some c) ∨
    (((∃ d, f.ev = .addDevice d) ∨ ∃ i, f.ev = .removeDevice i) ∧ f.owner = none)
  owner : ∀ c, f.owner = some c → ∃ x, s.conns c = some x ∧ x.status = .running
  prog : ∃ d, f.code.WL f.held f.committed d ∧ (f.committed = false → ∀ s' : Shared σ,
    (d = true → ∀ l, f.held l ≠ none → Same l s' s.shared) →
    f.code.exec s' = afterEv env p f.ev (f.owner.bind s.conns) s')
  conn : f.committed = true → ∀ c, f.owner = some c →
    S.conns c = (f.code.exec s.shared).2.conn? ∧ ∃ y, (f.code.exec s.shared).2 = .conn y
  data : f.committed = true → ∀ l, f.held l = some .w → Same l (f.code.exec s.shared).1 S.shared

/-- Invariant of a configuration, relating it to the sequential state `S`. -/
structure CInv {σ} (env : Env σ) (p : Profile) (S : Sys σ) (s : Cfg σ) : Prop where
  world : S.shared.world = s.shared.world
  data : ∀ l, (∀ t f, s.flights t = some f → f.committed = true → f.held l ≠ some .w) →
    Same l S.shared s.shared
  excl : ∀ t u f g l m n, t ≠ u → s.flights t = some f → s.flights u = some g →
    f.held l = some m → g.held l = some n → compatible m n = true
  owners : ∀ t u f g c, s.flights t = some f → s.flights u = some g → f.owner = some c →
    g.owner = some c → t = u
  conns : ∀ c, (∀ t f, s.flights t = some f → f.committed = true → f.owner ≠ some c) →
    S.conns c = s.conns c
  fl : ∀ t f, s.flights t = some f → FInv env p S s f

theorem FInv.transfer {σ} {env : Env σ} {p : Profile} {S S' : Sys σ} {s s' : Cfg σ} {f : Flight σ}
    (h : FInv env p S s f) (ho : ∀ c, f.owner = some c → s'.conns c = s.conns c)
    (hO : ∀ c, f.owner = some c → f.committed = true → S'.conns c = S.conns c)
    (hs : ∀ l, f.held l ≠ none → Same l s'.shared s.shared)
    (hS : f.committed = true → ∀ l, f.held l = some .w → Same l S'.shared S.shared) :
    FInv env p S' s' f := by
  obtain ⟨d, hwl, hp⟩ := h.prog
  have hb : f.owner.bind s'.conns = f.owner.bind s.conns := by
    cases hf : f.owner with
    | none => rfl
    | some c => simp [ho c hf]
  have hdep : f.committed = true → _ := fun hc =>
    exec_depends f.code f.held d s'.shared s.shared (hc ▸ hwl) hs
  refine ⟨h.kind, fun c hc => by rw [ho c hc]; exact h.owner c hc, ⟨d, hwl, fun hc s1 h1 => ?_⟩,
    fun hc c hf => ?_, fun hc l hl => ?_⟩
  · rw [hb]
    exact hp hc s1 (fun hd l hl => (h1 hd l hl).trans (hs l hl))
  · rw [hO c hf hc, (hdep hc).1]
    exact h.conn hc c hf
  · have hn : f.held l ≠ none := by rw [hl]; simp
    exact (((hdep hc).2 l hn).trans (h.data hc l hl)).trans (hS hc l hl).symm

theorem compatible_comm {m n : Mode} (h : compatible m n = true) : compatible n m = true := by
  cases m <;> cases n <;> simp_all [compatible]

theorem compatible_w {m : Mode} : compatible m .w = false := by cases m <;> rfl

theorem put_same {σ} (s : Cfg σ) (t : Nat) (f : Option (Flight σ)) : (s.put t f).flights t = f :=
  upd_self _ _ _
theorem put_ne {σ} (s : Cfg σ) {t u : Nat} (f : Option (Flight σ)) (h : u ≠ t) :
    (s.put t f).flights u = s.flights u := upd_ne _ _ h

/-- What a flight holds is not being written by others. -/
theorem CInv.held_data {σ} {env : Env σ} {p : Profile} {S : Sys σ} {s : Cfg σ} (h : CInv env p S s)
    {t : Nat} {f : Flight σ} (ht : s.flights t = some f) (hc : f.committed = false) {l : Lk}
    (hl : f.held l ≠ none) : Same l S.shared s.shared := by
  refine h.data l (fun u g hu hg hw => ?_)
  by_cases e : t = u
  · subst e
    rw [ht] at hu
    rw [← Option.some.inj hu, hc] at hg
    simp at hg
  · cases hm : f.held l with
    | none => exact hl hm
    | some m =>
      have := h.excl t u f g l m .w e ht hu hm hw
      rw [compatible_w] at this
      simp at this

theorem flights_upd {σ} {s s' : Cfg σ} {t : Nat} {o : Option (Flight σ)}
    (hfl : s'.flights = upd s.flights t o) {u : Nat} {g : Flight σ} (h : s'.flights u = some g) :
    (u = t ∧ o = some g) ∨ (u ≠ t ∧ s.flights u = some g) := by
  rw [hfl] at h
  by_cases e : u = t
  · subst e; rw [upd_self] at h; exact Or.inl ⟨rfl, h⟩
  · rw [upd_ne _ _ e] at h; exact Or.inr ⟨e, h⟩

/-- A step inside one program. -/
theorem CInv.internal {σ} {env : Env σ} {p : Profile} {S : Sys σ} {s s' : Cfg σ} (h : CInv env p S s)
    {t : Nat} {f f' : Flight σ} (ht : s.flights t = some f)
    (hfl : s'.flights = upd s.flights t (some f')) (hcn : s'.conns = s.conns)
    (hown : f'.owner = f.owner) (hcm : f'.committed = f.committed)
    (hw : s'.shared.world = s.shared.world)
    (hex : ∀ u g l m n, u ≠ t → s.flights u = some g → f'.held l = some m → g.held l = some n →
      compatible m n = true)
    (hsame : ∀ u g l, u ≠ t → s.flights u = some g → g.held l ≠ none → Same l s'.shared s.shared)
    (hdata : ∀ l, (∀ u g, s'.flights u = some g → g.committed = true → g.held l ≠ some .w) →
      Same l S.shared s'.shared)
    (hf : FInv env p S s' f') : CInv env p S s' := by
  refine ⟨h.world.trans hw.symm, hdata, ?_, ?_, ?_, ?_⟩
  · intro a b x y l m n hab hx hy hxm hyn
    rcases flights_upd hfl hx with ⟨rfl, e⟩ | ⟨ha, hx'⟩ <;>
      rcases flights_upd hfl hy with ⟨rfl, e'⟩ | ⟨hb, hy'⟩
    · exact absurd rfl hab
    · cases e; exact hex b y l m n hb hy' hxm hyn
    · cases e'; exact compatible_comm (hex a x l n m ha hx' hyn hxm)
    · exact h.excl a b x y l m n hab hx' hy' hxm hyn
  · intro a b x y c hx hy hxc hyc
    rcases flights_upd hfl hx with ⟨rfl, e⟩ | ⟨ha, hx'⟩ <;>
      rcases flights_upd hfl hy with ⟨rfl, e'⟩ | ⟨hb, hy'⟩
    · rfl
    · cases e; exact h.owners a b f y c ht hy' (hown ▸ hxc) hyc
    · cases e'; exact h.owners a b x f c hx' ht hxc (hown ▸ hyc)
    · exact h.owners a b x y c hx' hy' hxc hyc
  · intro c hc
    rw [hcn]
    refine h.conns c (fun u g hu hg hgc => ?_)
    by_cases e : u = t
    · subst e
      rw [ht] at hu; cases hu
      exact hc u f' (by rw [hfl, upd_self]) (hcm.trans hg) (hown.trans hgc)
    · exact hc u g (by rw [hfl, upd_ne _ _ e]; exact hu) hg hgc
  · intro u g hu
    rcases flights_upd hfl hu with ⟨rfl, e⟩ | ⟨hne, hu⟩
    · cases e; exact hf
    · exact (h.fl u g hu).transfer (fun c _ => by rw [hcn]) (fun _ _ _ => rfl)
        (fun l hl => hsame u g l hne hu hl) (fun _ l _ => Same.refl l _)

/-- A new program. -/
theorem CInv.begin {σ} {env : Env σ} {p : Profile} {S : Sys σ} {s : Cfg σ} (h : CInv env p S s)
    {t : Nat} (ht : s.flights t = none) {ev : Event σ} {o : Option Nat} {code : Task σ}
    (hidle : ∀ c, o = some c → s.idle c) (hf : FInv env p S s (Flight.start ev o code)) :
    CInv env p S (s.put t (some (Flight.start ev o code))) := by
  have hfl : (s.put t (some (Flight.start ev o code))).flights
      = upd s.flights t (some (Flight.start ev o code)) := rfl
  refine ⟨h.world, ?_, ?_, ?_, ?_, ?_⟩
  · intro l hl
    refine h.data l (fun u g hu => hl u g ?_)
    rw [put_ne]
    · exact hu
    · rintro rfl; rw [ht] at hu; simp at hu
  · intro a b x y l m n hab hx hy hxm hyn
    rcases flights_upd hfl hx with ⟨rfl, e⟩ | ⟨ha, hx'⟩
    · cases e; simp [Flight.start] at hxm
    · rcases flights_upd hfl hy with ⟨rfl, e⟩ | ⟨hb, hy'⟩
      · cases e; simp [Flight.start] at hyn
      · exact h.excl a b x y l m n hab hx' hy' hxm hyn
  · intro a b x y c hx hy hxc hyc
    rcases flights_upd hfl hx with ⟨rfl, e⟩ | ⟨ha, hx'⟩ <;>
      rcases flights_upd hfl hy with ⟨rfl, e'⟩ | ⟨hb, hy'⟩
    · rfl
    · cases e; exact absurd hyc (hidle c hxc b y hy')
    · cases e'; exact absurd hxc (hidle c hyc a x hx')
    · exact h.owners a b x y c hx' hy' hxc hyc
  · intro c hc
    refine h.conns c (fun u g hu => hc u g ?_)
    rw [put_ne]
    · exact hu
    · rintro rfl; rw [ht] at hu; simp at hu
  · intro u g hu
    rcases flights_upd hfl hu with ⟨rfl, e⟩ | ⟨hne, hu⟩
    · cases e; exact hf.transfer (fun _ _ => rfl) (fun _ _ _ => rfl) (fun l _ => Same.refl l _)
        (fun _ l _ => Same.refl l _)
    · exact (h.fl u g hu).transfer (fun _ _ => rfl) (fun _ _ _ => rfl) (fun l _ => Same.refl l _)
        (fun _ l _ => Same.refl l _)

theorem Sys.step_iterate {σ} (env : Env σ) (p : Profile) (S : Sys σ) (c : Nat) (w : WriteRes) (x : Conn)
    (hx : S.conns c = some x) (hr : x.status = .running) :
    S.step env p (.iterate c w) =
      ⟨(x.iterate env p S.shared w).1, setConn S.conns c (x.iterate env p S.shared w).2⟩ := by
  simp [Sys.step, hx, hr]

/-- The event of an uncommitted program, on the sequential state. -/
theorem step_afterEv {σ} {env : Env σ} {p : Profile} {S : Sys σ} {s : Cfg σ} (h : CInv env p S s)
    {t : Nat} {f : Flight σ} (ht : s.flights t = some f) (hc : f.committed = false) :
    (S.step env p f.ev).shared = (afterEv env p f.ev (f.owner.bind s.conns) S.shared).1 ∧
    (∀ c, f.owner = some c →
      (S.step env p f.ev).conns c = (afterEv env p f.ev (f.owner.bind s.conns) S.shared).2.conn? ∧
      ∃ y, (afterEv env p f.ev (f.owner.bind s.conns) S.shared).2 = .conn y) ∧
    (∀ c, f.owner ≠ some c → (S.step env p f.ev).conns c = S.conns c) := by
  have hF := h.fl t f ht
  rcases hF.kind with ⟨c, w, hev, ho⟩ | ⟨hev, ho⟩
  · obtain ⟨x, hx, hr⟩ := hF.owner c ho
    have hS : S.conns c = some x := by
      rw [h.conns c (fun u g hu hg hgc => ?_), hx]
      have := h.owners t u f g c ht hu ho hgc
      subst this
      rw [ht] at hu; cases hu
      rw [hc] at hg; simp at hg
    rw [hev, Sys.step_iterate env p S c w x hS hr]
    simp only [ho, Option.bind_some, hx, afterEv, true_and]
    refine ⟨fun c' e => ?_, fun c' e => ?_⟩
    · cases e; simp [setConn, Ended.conn?]
    · simp only [setConn]; rw [if_neg]; rintro rfl; exact e rfl
  · rcases hev with ⟨d, hev⟩ | ⟨i, hev⟩ <;> rw [hev] <;> simp [Sys.step, afterEv, ho]

/-- A program has its effect. -/
theorem CInv.commit {σ} {env : Env σ} {p : Profile} {S : Sys σ} {s : Cfg σ} (h : CInv env p S s)
    {t : Nat} {f : Flight σ} {g : World σ → World σ} {k : World σ → Task σ}
    (ht : s.flights t = some f) (hk : f.code = .commit g k) :
    CInv env p (S.step env p f.ev)
      { s.put t (some { f with code := k s.shared.world, committed := true }) with
        shared := { s.shared with world := g s.shared.world } } := by
  have hF := h.fl t f ht
  obtain ⟨d, hwl, hp⟩ := hF.prog
  rw [hk] at hwl hp
  have hcm : f.committed = false := hwl.1
  obtain ⟨hsh, hown, hoth⟩ := step_afterEv h ht hcm
  rw [← hp hcm S.shared (fun _ l hl => h.held_data ht hcm hl)] at hsh hown
  simp only [Task.exec] at hsh hown
  have hwl' := hwl.2 s.shared.world
  rw [h.world] at hsh hown
  generalize hT : ({ S.shared with world := g s.shared.world } : Shared σ) = T at *
  generalize hU : ({ s.shared with world := g s.shared.world } : Shared σ) = U at *
  have hST : ∀ l, Same l T S.shared := by intro l; rw [← hT]; cases l <;> rfl
  have hsU : ∀ l, Same l U s.shared := by intro l; rw [← hU]; cases l <;> rfl
  have hdep := exec_depends (k s.shared.world) f.held d T U hwl' (fun l hl =>
    ((hST l).trans (h.held_data ht hcm hl)).trans (hsU l).symm)
  have hfr : ∀ l, f.held l ≠ some .w → Same l (S.step env p f.ev).shared S.shared := fun l hl => by
    rw [hsh]; exact (exec_frame _ f.held d T l hwl' hl).trans (hST l)
  have hfl : ({ s.put t (some { f with code := k s.shared.world, committed := true }) with
        shared := U } : Cfg σ).flights
      = upd s.flights t (some { f with code := k s.shared.world, committed := true }) := rfl
  refine ⟨?_, ?_, ?_, ?_, ?_, ?_⟩
  · rw [hsh, exec_world _ f.held d T hwl', ← hT, ← hU]
  · intro l hl
    have hlf : f.held l ≠ some .w := by
      refine hl t { f with code := k s.shared.world, committed := true } ?_ rfl
      rw [hfl, upd_self]
    refine ((hfr l hlf).trans (h.data l (fun u y hu hy => ?_))).trans (hsU l).symm
    by_cases e : u = t
    · subst e; rw [ht] at hu; cases hu; exact hlf
    · exact hl u y (by rw [hfl, upd_ne _ _ e]; exact hu) hy
  · intro a b x y l m n hab hx hy hxm hyn
    rcases flights_upd hfl hx with ⟨rfl, e⟩ | ⟨ha, hx'⟩ <;>
      rcases flights_upd hfl hy with ⟨rfl, e'⟩ | ⟨hb, hy'⟩
    · exact absurd rfl hab
    · cases e; exact h.excl a b f y l m n hab ht hy' hxm hyn
    · cases e'; exact h.excl a b x f l m n hab hx' ht hxm hyn
    · exact h.excl a b x y l m n hab hx' hy' hxm hyn
  · intro a b x y c hx hy hxc hyc
    rcases flights_upd hfl hx with ⟨rfl, e⟩ | ⟨ha, hx'⟩ <;>
      rcases flights_upd hfl hy with ⟨rfl, e'⟩ | ⟨hb, hy'⟩
    · rfl
    · cases e; exact h.owners a b f y c ht hy' hxc hyc
    · cases e'; exact h.owners a b x f c hx' ht hxc hyc
    · exact h.owners a b x y c hx' hy' hxc hyc
  · intro c hc
    have hfc : f.owner ≠ some c :=
      hc t { f with code := k s.shared.world, committed := true } (by rw [hfl, upd_self]) rfl
    rw [hoth c hfc]
    refine h.conns c (fun u y hu hy => ?_)
    by_cases e : u = t
    · subst e; rw [ht] at hu; cases hu; exact hfc
    · exact hc u y (by rw [hfl, upd_ne _ _ e]; exact hu) hy
  · intro u y hu
    rcases flights_upd hfl hu with ⟨rfl, e⟩ | ⟨hne, hu⟩
    · cases e
      refine ⟨hF.kind, hF.owner, ⟨d, hwl', fun e => absurd e (by simp)⟩, fun _ c hc => ?_,
        fun _ l hl => ?_⟩
      · obtain ⟨h1, h2⟩ := hown c hc
        dsimp only
        rw [← hdep.1]
        exact ⟨h1, h2⟩
      · rw [hsh]
        exact (hdep.2 l (by dsimp only at hl; rw [hl]; simp)).symm
    · refine (h.fl u y hu).transfer (fun _ _ => rfl) (fun c hc _ => hoth c (fun hf => ?_))
        (fun l _ => hsU l) (fun _ l hl => hfr l (fun hf => ?_))
      · exact hne (h.owners u t y f c hu ht hc hf)
      · have := h.excl u t y f l .w .w hne hu ht hl hf
        simp [compatible] at this

/-- A program goes away. -/
theorem CInv.leave {σ} {env : Env σ} {p : Profile} {S S' : Sys σ} {s s' : Cfg σ} (h : CInv env p S s)
    {t : Nat} {f : Flight σ} (ht : s.flights t = some f) (hfl : s'.flights = upd s.flights t none)
    (hsh : s'.shared = s.shared) (hSS : S'.shared = S.shared)
    (hlk : f.committed = true → ∀ l, f.held l ≠ some .w)
    (hcn : ∀ c, f.owner ≠ some c → s'.conns c = s.conns c ∧ S'.conns c = S.conns c)
    (hco : ∀ c, f.owner = some c → S'.conns c = s'.conns c) : CInv env p S' s' := by
  have up : ∀ {u g}, s'.flights u = some g → u ≠ t ∧ s.flights u = some g := by
    intro u g hu
    rcases flights_upd hfl hu with ⟨_, e⟩ | ⟨hne, hu⟩
    · simp at e
    · exact ⟨hne, hu⟩
  have down : ∀ {u g}, u ≠ t → s.flights u = some g → s'.flights u = some g := by
    intro u g hne hu; rw [hfl, upd_ne _ _ hne]; exact hu
  refine ⟨by rw [hSS, hsh]; exact h.world, ?_, ?_, ?_, ?_, ?_⟩
  · intro l hl
    rw [hSS, hsh]
    refine h.data l (fun u g hu hg => ?_)
    by_cases e : u = t
    · subst e; rw [ht] at hu; cases hu; exact hlk hg l
    · exact hl u g (down e hu) hg
  · intro a b x y l m n hab hx hy
    exact h.excl a b x y l m n hab (up hx).2 (up hy).2
  · intro a b x y c hx hy
    exact h.owners a b x y c (up hx).2 (up hy).2
  · intro c hc
    by_cases ho : f.owner = some c
    · exact hco c ho
    · rw [(hcn c ho).1, (hcn c ho).2]
      refine h.conns c (fun u g hu hg => ?_)
      by_cases e : u = t
      · subst e; rw [ht] at hu; cases hu; exact ho
      · exact hc u g (down e hu) hg
  · intro u g hu
    obtain ⟨hne, hu⟩ := up hu
    have hno : ∀ c, g.owner = some c → f.owner ≠ some c := fun c hc hf =>
      hne (h.owners u t g f c hu ht hc hf)
    exact (h.fl u g hu).transfer (fun c hc => (hcn c (hno c hc)).1) (fun c hc _ => (hcn c (hno c hc)).2)
      (fun l _ => by rw [hsh]; exact Same.refl l _) (fun _ l _ => by rw [hSS]; exact Same.refl l _)

/-- A step inside one program that changes neither tables nor guards. -/
theorem CInv.local {σ} {env : Env σ} {p : Profile} {S : Sys σ} {s s' : Cfg σ} (h : CInv env p S s)
    {t : Nat} {f f' : Flight σ} (ht : s.flights t = some f)
    (hfl : s'.flights = upd s.flights t (some f')) (hcn : s'.conns = s.conns)
    (hsh : s'.shared = s.shared) (hev : f'.ev = f.ev) (hown : f'.owner = f.owner)
    (hcm : f'.committed = f.committed) (hheld : f'.held = f.held)
    (hex : f'.code.exec s.shared = f.code.exec s.shared)
    (hprog : ∃ d, f'.code.WL f.held f.committed d ∧ (f.committed = false → ∀ s1 : Shared σ,
      (d = true → ∀ l, f.held l ≠ none → Same l s1 s.shared) →
      f'.code.exec s1 = afterEv env p f.ev (f.owner.bind s.conns) s1)) : CInv env p S s' := by
  have hF := h.fl t f ht
  refine h.internal ht hfl hcn hown hcm (by rw [hsh]) ?_ (fun _ _ l _ _ _ => by rw [hsh]; exact Same.refl l _) ?_ ?_
  · intro u g l m n hne hu hm hn
    exact h.excl t u f g l m n (Ne.symm hne) ht hu (hheld ▸ hm) hn
  · intro l hl
    rw [hsh]
    refine h.data l (fun u g hu hg => ?_)
    by_cases e : u = t
    · subst e; rw [ht] at hu; cases hu
      have := hl u f' (by rw [hfl, upd_self]) (hcm.trans hg)
      rwa [hheld] at this
    · exact hl u g (by rw [hfl, upd_ne _ _ e]; exact hu) hg
  · refine ⟨?_, ?_, ?_, ?_, ?_⟩
    · rw [hev, hown]; exact hF.kind
    · rw [hown, hcn]; exact hF.owner
    · rw [hheld, hcm, hev, hown, hcn, hsh]; exact hprog
    · rw [hcm, hown, hsh, hex]; exact hF.conn
    · rw [hcm, hheld, hsh, hex]; exact hF.data

/-- No program of a connection that has none in flight. -/
theorem CInv.conn_idle {σ} {env : Env σ} {p : Profile} {S : Sys σ} {s : Cfg σ} (h : CInv env p S s)
    {c : Nat} (hi : s.idle c) : S.conns c = s.conns c :=
  h.conns c (fun u g hu _ => hi u g hu)

theorem setConn_ne {conns : Nat → Option Conn} {c c' : Nat} {x : Conn} (h : c' ≠ c) :
    setConn conns c x c' = conns c' := if_neg h

/-- A change of a connection without a program, on both sides. -/
theorem CInv.set_idle {σ} {env : Env σ} {p : Profile} {S : Sys σ} {s : Cfg σ} (h : CInv env p S s)
    {c : Nat} (hi : s.idle c) (x : Conn) :
    CInv env p { S with conns := setConn S.conns c x } { s with conns := setConn s.conns c x } := by
  have hno : ∀ u g c', s.flights u = some g → g.owner = some c' → c' ≠ c := by
    rintro u g c' hu hg rfl; exact hi u g hu hg
  refine ⟨h.world, h.data, h.excl, h.owners, ?_, ?_⟩
  · intro c' hc'
    by_cases e : c' = c
    · subst e; simp [setConn]
    · simp only [setConn_ne e]; exact h.conns c' hc'
  · intro u g hu
    exact (h.fl u g hu).transfer (fun c' hc' => setConn_ne (hno u g c' hu hc'))
      (fun c' hc' _ => setConn_ne (hno u g c' hu hc')) (fun l _ => Same.refl l _)
      (fun _ l _ => Same.refl l _)

theorem CInv.step {σ} {env : Env σ} {p : Profile} {S : Sys σ} {s s' : Cfg σ} {lb : Label σ}
    (h : CInv env p S s) (st : Cfg.Step env p s lb s') : CInv env p (S.run env p lb.event.toList) s' := by
  cases st with
  | connect c input hc =>
    have hi : s.idle c := fun u g hu ho => by
      obtain ⟨x, hx, _⟩ := (h.fl u g hu).owner c ho
      rw [hc] at hx; simp at hx
    have hS : S.conns c = none := (h.conn_idle hi).trans hc
    have : S.run env p (Label.outside (Event.connect c input)).event.toList
        = { S with conns := setConn S.conns c (Conn.new input) } := by
      simp [Label.event, Sys.run, Sys.step, hS]
    rw [this]
    exact h.set_idle hi _
  | user f =>
    refine ⟨?_, h.data, h.excl, h.owners, h.conns, fun u g hu => (h.fl u g hu).transfer
      (fun _ _ => rfl) (fun _ _ _ => rfl) (fun l _ => ?_) (fun _ l _ => ?_)⟩
    · show S.shared.world.used f _ = _
      rw [h.world]
    · cases l <;> rfl
    · cases l <;> rfl
  | iterate t c w x ht hc hr hi =>
    refine h.begin ht (fun c' e => by cases e; exact hi) ⟨Or.inl ⟨c, w, rfl, rfl⟩, ?_, ?_, ?_, ?_⟩
    · intro c' e; cases e; exact ⟨x, hc, hr⟩
    · refine ⟨false, iterTask_WL env p x w, fun _ s1 _ => ?_⟩
      simp only [Flight.start, Option.bind_some, hc, afterEv]
      exact iterTask_exec env p x w s1
    · intro e; simp [Flight.start] at e
    · intro e; simp [Flight.start] at e
  | add t d ht =>
    refine h.begin ht (fun c' e => by simp at e) ⟨Or.inr ⟨Or.inl ⟨d, rfl⟩, rfl⟩, ?_, ?_, ?_, ?_⟩
    · intro c' e; simp [Flight.start] at e
    · exact ⟨false, addTask_WL d, fun _ s1 _ => addTask_exec d s1⟩
    · intro e; simp [Flight.start] at e
    · intro e; simp [Flight.start] at e
  | remove t i ht =>
    refine h.begin ht (fun c' e => by simp at e) ⟨Or.inr ⟨Or.inr ⟨i, rfl⟩, rfl⟩, ?_, ?_, ?_, ?_⟩
    · intro c' e; simp [Flight.start] at e
    · exact ⟨false, removeTask_WL i, fun _ s1 _ => removeTask_exec i s1⟩
    · intro e; simp [Flight.start] at e
    · intro e; simp [Flight.start] at e
  | request t f l m k ht hk hw =>
    exact h.local (f' := { f with waiting := true }) ht rfl rfl rfl rfl rfl rfl rfl rfl (h.fl t f ht).prog
  | grant t f l m k q ht hk hw hq hc =>
    have hF := h.fl t f ht
    obtain ⟨d, hwl, hp⟩ := hF.prog
    rw [hk] at hwl hp
    have hcm : f.committed = false := hwl.1
    refine h.internal (f' := { f with code := k, waiting := false, held := upd f.held l (some m) })
      ht rfl rfl rfl rfl rfl ?_ (fun _ _ l _ _ _ => Same.refl l _) ?_ ?_
    · intro u g l' m' n hne hu hm hn
      dsimp only at hm
      by_cases e : l' = l
      · subst e
        rw [upd_self] at hm; cases hm
        exact hc u g n hu hn
      · rw [upd_ne _ _ e] at hm
        exact h.excl t u f g l' m' n (Ne.symm hne) ht hu hm hn
    · intro l' hl
      refine h.data l' (fun u g hu hg => ?_)
      by_cases e : u = t
      · subst e; rw [ht] at hu; cases hu; rw [hcm] at hg; simp at hg
      · exact hl u g ((upd_ne _ _ e).trans hu) hg
    · refine ⟨hF.kind, hF.owner, ⟨d, hwl.2.2, fun _ s1 h1 => hp hcm s1 (fun hd l' hl' => ?_)⟩,
        fun e => ?_, fun e => ?_⟩
      · refine h1 hd l' ?_
        dsimp only
        by_cases e : l' = l
        · subst e; exact absurd hwl.2.1 hl'
        · rwa [upd_ne _ _ e]
      · dsimp only at e; rw [hcm] at e; simp at e
      · dsimp only at e; rw [hcm] at e; simp at e
  | unlock t f l k ht hk =>
    have hF := h.fl t f ht
    obtain ⟨d, hwl, hp⟩ := hF.prog
    have hcn := hF.conn
    have hdt := hF.data
    rw [hk] at hwl hp hcn hdt
    have hsub : ∀ l' m, upd f.held l none l' = some m → f.held l' = some m := by
      intro l' m hm
      by_cases e : l' = l
      · subst e; rw [upd_self] at hm; simp at hm
      · rwa [upd_ne _ _ e] at hm
    refine h.internal (f' := { f with code := k, held := upd f.held l none })
      ht rfl rfl rfl rfl rfl ?_ (fun _ _ l _ _ _ => Same.refl l _) ?_ ?_
    · intro u g l' m' n hne hu hm hn
      exact h.excl t u f g l' m' n (Ne.symm hne) ht hu (hsub _ _ hm) hn
    · intro l' hl
      by_cases hw : f.committed = true ∧ f.held l' = some .w
      · have hl1 : upd f.held l none l' ≠ some .w :=
          hl t { f with code := k, held := upd f.held l none } (upd_self _ _ _) hw.1
        have h2 := hdt hw.1 l' hw.2
        have h3 := exec_frame k _ d s.shared l' (hw.1 ▸ hwl.2.2) hl1
        exact h2.symm.trans h3
      · refine h.data l' (fun u g hu hg hgw => ?_)
        by_cases e : u = t
        · subst e; rw [ht] at hu; cases hu; exact hw ⟨hg, hgw⟩
        · exact hl u g ((upd_ne _ _ e).trans hu) hg hgw
    · refine ⟨hF.kind, hF.owner, ⟨d, hwl.2.2, fun hc s1 h1 => hp hc s1 (fun hd => ?_)⟩, hcn, ?_⟩
      · rcases hwl.1 with e | e
        · rw [show f.committed = false from hc] at e; simp at e
        · rw [e] at hd; simp at hd
      · intro hc l' hl'
        exact hdt hc l' (hsub _ _ hl')
  | getUsed t f k ht hk =>
    obtain ⟨d, hwl, hp⟩ := (h.fl t f ht).prog
    rw [hk] at hwl hp
    refine h.local (f' := { f with code := k s.shared.used }) ht rfl rfl rfl rfl rfl rfl rfl (by rw [hk]; rfl) ?_
    refine ⟨true, hwl.2 _, fun hc s1 h1 => ?_⟩
    rw [← hp hc s1 (fun _ => h1 rfl)]
    have : s1.used = s.shared.used := h1 rfl .used hwl.1
    simp only [Task.exec, this]
  | getAvail t f k ht hk =>
    obtain ⟨d, hwl, hp⟩ := (h.fl t f ht).prog
    rw [hk] at hwl hp
    refine h.local (f' := { f with code := k s.shared.available }) ht rfl rfl rfl rfl rfl rfl rfl (by rw [hk]; rfl) ?_
    refine ⟨true, hwl.2 _, fun hc s1 h1 => ?_⟩
    rw [← hp hc s1 (fun _ => h1 rfl)]
    have : s1.available = s.shared.available := h1 rfl .avail hwl.1
    simp only [Task.exec, this]
  | putUsed t f v k ht hk =>
    have hF := h.fl t f ht
    obtain ⟨d, hwl, hp⟩ := hF.prog
    have hcn := hF.conn
    have hdt := hF.data
    rw [hk] at hwl hp hcn hdt
    refine h.internal (f' := { f with code := k }) ht rfl rfl rfl rfl rfl
      (fun u g l m n hne hu hm hn => h.excl t u f g l m n (Ne.symm hne) ht hu hm hn) ?_ ?_ ?_
    · intro u g l hne hu hg
      cases l with
      | avail => rfl
      | used =>
        cases hm : g.held .used with
        | none => exact absurd hm hg
        | some m =>
          have := h.excl u t g f .used m .w hne hu ht hm hwl.2.1
          rw [compatible_w] at this; simp at this
    · intro l hl
      cases l with
      | used => exact absurd hwl.2.1 (hl t { f with code := k } (upd_self _ _ _) hwl.1)
      | avail =>
        refine h.data .avail (fun u g hu hg => ?_)
        by_cases e : u = t
        · subst e; rw [ht] at hu; cases hu
          exact hl u { f with code := k } (upd_self _ _ _) hg
        · exact hl u g ((upd_ne _ _ e).trans hu) hg
    · exact ⟨hF.kind, hF.owner, ⟨d, hwl.2.2, fun e => by
        dsimp only at e; rw [hwl.1] at e; simp at e⟩, hcn, hdt⟩
  | putAvail t f v k ht hk =>
    have hF := h.fl t f ht
    obtain ⟨d, hwl, hp⟩ := hF.prog
    have hcn := hF.conn
    have hdt := hF.data
    rw [hk] at hwl hp hcn hdt
    refine h.internal (f' := { f with code := k }) ht rfl rfl rfl rfl rfl
      (fun u g l m n hne hu hm hn => h.excl t u f g l m n (Ne.symm hne) ht hu hm hn) ?_ ?_ ?_
    · intro u g l hne hu hg
      cases l with
      | used => rfl
      | avail =>
        cases hm : g.held .avail with
        | none => exact absurd hm hg
        | some m =>
          have := h.excl u t g f .avail m .w hne hu ht hm hwl.2.1
          rw [compatible_w] at this; simp at this
    · intro l hl
      cases l with
      | avail => exact absurd hwl.2.1 (hl t { f with code := k } (upd_self _ _ _) hwl.1)
      | used =>
        refine h.data .used (fun u g hu hg => ?_)
        by_cases e : u = t
        · subst e; rw [ht] at hu; cases hu
          exact hl u { f with code := k } (upd_self _ _ _) hg
        · exact hl u g ((upd_ne _ _ e).trans hu) hg
    · exact ⟨hF.kind, hF.owner, ⟨d, hwl.2.2, fun e => by
        dsimp only at e; rw [hwl.1] at e; simp at e⟩, hcn, hdt⟩
  | commit t f g k ht hk => exact h.commit ht hk
  | send t f k ht hk =>
    obtain ⟨d, hwl, hp⟩ := (h.fl t f ht).prog
    rw [hk] at hwl hp
    exact h.local (f' := { f with code := k }) ht rfl rfl rfl rfl rfl rfl rfl (by rw [hk]; rfl)
      ⟨d, hwl.2, hp⟩
  | finish t f x ht hk =>
    have hF := h.fl t f ht
    obtain ⟨d, hwl, hp⟩ := hF.prog
    have hcn := hF.conn
    rw [hk] at hwl hp hcn
    refine h.leave (S' := S) ht rfl rfl rfl (fun _ l => by rw [hwl.2 l]; simp) (fun c hc => ⟨?_, rfl⟩)
      (fun c hc => ?_)
    · dsimp only [finished, Cfg.put]
      cases ho : f.owner with
      | none => rfl
      | some c' =>
        cases x with
        | call r => rfl
        | conn y => exact setConn_ne (fun e => hc (by rw [ho, e]))
    · obtain ⟨h1, y, h2⟩ := hcn hwl.1 c hc
      simp only [Task.exec] at h1 h2
      rw [h1, h2]
      simp [finished, hc, setConn, Ended.conn?]
  | abandon t f ht hc =>
    have hF := h.fl t f ht
    cases ho : f.owner with
    | none =>
      refine h.leave (S' := S) ht rfl rfl rfl (fun e => by rw [hc] at e; simp at e)
        (fun c _ => ⟨rfl, rfl⟩) (fun c e => by rw [ho] at e; simp at e)
    | some c =>
      obtain ⟨x, hx, hr⟩ := hF.owner c ho
      have hS : S.conns c = some x := by
        rw [h.conns c (fun u g hu hg hgc => ?_), hx]
        have := h.owners t u f g c ht hu ho hgc
        subst this
        rw [ht] at hu; cases hu
        rw [hc] at hg; simp at hg
      have : S.run env p (Label.dropped t (some c)).event.toList
          = { S with conns := setConn S.conns c { x with status := .cancelled } } := by
        simp [Label.event, Sys.run, Sys.step, hS, hr]
      rw [this]
      refine h.leave ht rfl rfl rfl (fun e => by rw [hc] at e; simp at e) (fun c' hc' => ?_)
        (fun c' hc' => ?_)
      · have hne : c' ≠ c := by rintro rfl; exact hc' ho
        simp only [dropped, hx, setConn_ne hne, and_self]
      · rw [ho] at hc'; cases hc'
        simp [dropped, hx, setConn]
  | cancel c x hc hr hi =>
    have hS : S.conns c = some x := (h.conn_idle hi).trans hc
    have : S.run env p (Label.outside (Event.cancel c)).event.toList
        = { S with conns := setConn S.conns c { x with status := .cancelled } } := by
      simp [Label.event, Sys.run, Sys.step, hS, hr]
    rw [this]
    exact h.set_idle hi _

theorem CInv.init {σ} (env : Env σ) (p : Profile) (devices : List Device) (w : World σ) :
    CInv env p (Sys.init devices w) (Cfg.init devices w) :=
  ⟨rfl, fun l _ => Same.refl l _, fun _ _ _ _ _ _ _ _ h => by simp [Cfg.init] at h,
    fun _ _ _ _ _ h => by simp [Cfg.init] at h, fun _ _ => rfl, fun _ _ h => by simp [Cfg.init] at h⟩

theorem CInv.reach {σ} {env : Env σ} {p : Profile} {devices : List Device} {w : World σ}
    {ls : List (Label σ)} {s : Cfg σ} (h : Cfg.Reach env p (Cfg.init devices w) ls s) :
    CInv env p ((Sys.init devices w).run env p (ls.filterMap Label.event)) s := by
  induction h with
  | refl => exact CInv.init env p devices w
  | tail h st ih =>
    have := ih.step st
    rw [Sys.run, List.filterMap_append, List.foldl_append]
    rename_i lb _
    have e : [lb].filterMap Label.event = lb.event.toList := by
      simp only [List.filterMap_cons, List.filterMap_nil]
      cases lb.event <;> rfl
    rw [e]
    exact this

end Usbip
