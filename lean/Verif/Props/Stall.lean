import Verif.Lemmas.Stall
import Verif.Props.Fairness
/-!
# Clients that stop reading (C49)
-/

namespace Usbip
open Spec Samples

/-! ## What a stalled reply blocks -/

/-- C49, what goes wrong in general: a program that holds a lock and does not move (`u`: its client
does not read the reply) keeps every program that waits for the lock for writing where it is, unless
that is dropped; and the lock is from then on only given to programs that had asked for it before,
to each at most once. -/
theorem C49_blocked {σ} (env : Env σ) (p : Profile) (devices : List Device) (w : World σ)
    (ls0 : List (Label σ)) (s : Cfg σ) (h0 : Cfg.Reach env p (Cfg.init devices w) ls0 s)
    (l : Lk) (u t : Nat) (g f : Flight σ) (k : Task σ)
    (hu : s.flights u = some g) (hg : g.held l ≠ none)
    (ht : s.flights t = some f) (hw : f.waiting = true) (hk : f.code = .lock l .w k)
    (ls : List (Label σ)) (us : List Nat) (s' : Cfg σ) (h : Gets env p l s ls us s')
    (hnu : ∀ lb ∈ ls, prog lb ≠ some u) (hnt : ∀ o, .dropped t o ∉ ls) :
    s'.flights t = some f ∧ (∀ lb ∈ ls, prog lb ≠ some t) ∧
    us.Nodup ∧ t ∉ us ∧ ∀ v ∈ us, Waits s v l := by
  have hQ := QInv.reach h0
  have hr := h.reach (.refl (s0 := s) (env := env) (p := p))
  rw [List.nil_append] at hr
  obtain ⟨_, h2, h3⟩ := waiter_stuck hu hg ht hw hk hr hnu hnt
  obtain ⟨pre, post, hq⟩ := List.append_of_mem ((hQ.queue l t).2 ⟨f, .w, k, ht, hw, hk⟩)
  obtain ⟨pre', _, _, hsub⟩ := h.queue h0 hq h3
  have hs : us.Sublist pre := (List.sublist_append_left us pre').trans hsub
  have hnd := hQ.nodup l
  rw [hq] at hnd
  refine ⟨h2, h3, hs.nodup ((List.nodup_append.1 hnd).1), fun hm => ?_, fun v hv => (hQ.queue l v).1 ?_⟩
  · have := List.nodup_append.1 hnd
    exact this.2.2 t (hs.subset hm) t (by simp) rfl
  · rw [hq]; simp [hs.subset hv]

/-- C49, what goes wrong in general: as soon as somebody waits to write the table of imported devices
(an import; the end of a connection that has a device) while the reply of a command — any command — is
not being read, no connection that was between two commands, and none that is made later, is sent
a single byte. -/
theorem C49_freeze {σ} (env : Env σ) (p : Profile) (devices : List Device) (w : World σ)
    (ls0 : List (Label σ)) (s : Cfg σ) (h0 : Cfg.Reach env p (Cfg.init devices w) ls0 s)
    (u t : Nat) (g f : Flight σ) (k : Task σ)
    (hu : s.flights u = some g) (hg : g.held .used ≠ none)
    (ht : s.flights t = some f) (hw : f.waiting = true) (hk : f.code = .lock .used .w k)
    (ls : List (Label σ)) (s' : Cfg σ) (h : Cfg.Reach env p s ls s')
    (hnu : ∀ lb ∈ ls, prog lb ≠ some u) (hnt : ∀ o, .dropped t o ∉ ls)
    (c : Nat) (hc : s.idle c) :
    (∀ x x', s.conns c = some x → s'.conns c = some x' → x'.output = x.output) ∧
    (s.conns c = none → ∀ x', s'.conns c = some x' → x'.output = []) := by
  obtain ⟨pre, post, hq⟩ := List.append_of_mem (((QInv.reach h0).queue .used t).2 ⟨f, .w, k, ht, hw, hk⟩)
  have hF : Frozen t c (sentTo s c) s' := by
    have hst := (waiter_stuck hu hg ht hw hk h hnu hnt).2.2
    clear hnu hnt
    induction h with
    | refl => exact ⟨⟨pre, post, hq, fun v _ f hf => hc v f hf⟩, fun v f hf ho => absurd ho (hc v f hf), rfl⟩
    | tail h st ih =>
      exact (ih (fun lb hm => hst lb (by simp [hm]))).step (QInv.reach (h0.trans h)) st (hst _ (by simp))
  have hs := hF.sent
  unfold sentTo at hs
  refine ⟨fun x x' hx hx' => ?_, fun hx x' hx' => ?_⟩ <;> (rw [hx, hx'] at hs; exact hs)

/-! ### It happens -/

theorem go_lock_shared {σ} {env : Env σ} {p : Profile} {s0 s : Cfg σ} {t : Nat} {f : Flight σ} {l : Lk}
    {k : Task σ} (h : ∃ ls, Cfg.Reach env p s0 ls s) (ht : s.flights t = some f)
    (hk : f.code = .lock l .r k) (hw : f.waiting = false) (hq : s.queue l = []) (hl : f.held l = none)
    (hc : ∀ u g, u ≠ t → s.flights u = some g → g.held l ≠ some .w) :
    ∃ s', Moved env p s0 s s' t { f with code := k, held := upd f.held l (some .r) } ∧
      s'.shared = s.shared := by
  obtain ⟨ls, h⟩ := h
  have h1 := Cfg.Reach.tail h (.request s t f l .r k ht hk hw)
  have h2 := Cfg.Reach.tail h1 (.grant _ t { f with waiting := true } l .r k [] (upd_self _ _ _) hk rfl
    (by simp [upd_self, hq]) (by
      intro u g hh hu hg
      by_cases e : u = t
      · subst e
        simp only [Cfg.put, upd_self, Option.some.injEq] at hu
        subst hu
        dsimp only at hg; rw [hl] at hg; simp at hg
      · simp only [Cfg.put, upd_ne _ _ e] at hu
        cases hh with
        | r => rfl
        | w => exact absurd hg (hc u g e hu)))
  refine ⟨_, ⟨⟨_, h2⟩, ?_, ?_, ?_, rfl⟩, rfl⟩
  · simp only [Cfg.put, upd_self]
    rw [← hw]
  · intro u hu
    simp only [Cfg.put, upd_ne _ _ hu]
  · funext l'
    by_cases e : l' = l
    · subst e; simp only [upd_self]; exact hq.symm
    · simp only [upd_ne _ _ e, Cfg.put]

theorem go_ask {σ} {env : Env σ} {p : Profile} {s0 s : Cfg σ} {t : Nat} {f : Flight σ} {l : Lk}
    {m : Mode} {k : Task σ} (h : ∃ ls, Cfg.Reach env p s0 ls s) (ht : s.flights t = some f)
    (hk : f.code = .lock l m k) (hw : f.waiting = false) :
    ∃ s', (∃ ls, Cfg.Reach env p s0 ls s') ∧ s'.flights t = some { f with waiting := true } ∧
      (∀ u, u ≠ t → s'.flights u = s.flights u) ∧ s'.conns = s.conns := by
  obtain ⟨ls, h⟩ := h
  exact ⟨_, ⟨_, .tail h (.request s t f l m k ht hk hw)⟩, upd_self _ _ _, fun u hu => upd_ne _ _ hu, rfl⟩

/-- An unlink as sent by a client. -/
def unlinkStream : Stream := ⟨wireCmd cmdUnlink, .unexpectedEof⟩

theorem unlinkStream_read (p : Profile) :
    readCommand p unlinkStream = .ok (cmdUnlink, ⟨[], .unexpectedEof⟩) := by
  obtain ⟨bs, _, hb, hr⟩ := C01_roundtrip p cmdUnlink [] .unexpectedEof
    (by cases p.debugAssertions <;> decide)
  rw [hb, List.append_nil] at hr
  exact hr

theorem unlinkStream_task {σ} (env : Env σ) (p : Profile) (w : WriteRes) :
    iterTask env p (Conn.new unlinkStream) w
      = unlinkTask p (Conn.new unlinkStream) ⟨[], .unexpectedEof⟩ cmdUnlink ⟨2, 9, 65538, 0, 0⟩ w := by
  unfold iterTask
  rw [show (Conn.new unlinkStream).input = unlinkStream from rfl, unlinkStream_read]
  rfl

/-- A connection 0 on which an unlink is sent, its reply not being read. -/
theorem unlink_stalled {σ} (env : Env σ) (p : Profile) (devices : List Device) (w : World σ) :
    ∃ s f k, (∃ ls, Cfg.Reach env p (Cfg.init devices w) ls s) ∧
      s.flights 0 = some f ∧ f.owner = some 0 ∧ f.code = .send k ∧
      f.held .used = some .r ∧ f.held .avail = none ∧
      (∀ t, t ≠ 0 → s.flights t = none) ∧ (∀ l, s.queue l = []) ∧
      s.conns = setConn (fun _ => none) 0 (Conn.new unlinkStream) := by
  have r1 := Cfg.Reach.tail .refl (.connect (env := env) (p := p) (Cfg.init devices w) 0 unlinkStream rfl)
  have r2 := Cfg.Reach.tail r1 (.iterate _ 0 0 .full (Conn.new unlinkStream) rfl (by simp [setConn]) rfl
    (fun t f h => by simp [Cfg.init] at h))
  rw [unlinkStream_task] at r2
  obtain ⟨s1, ⟨h1, hf1, ho1, hq1, hc1⟩, _⟩ := go_lock ⟨_, r2⟩ (t := 0) (l := .used) (m := .r)
    (put_same _ _ _) rfl rfl rfl rfl (fun u g hu hg => by
      rw [put_ne _ _ hu] at hg; simp [Cfg.init] at hg)
  obtain ⟨s2, ⟨h2, hf2, ho2, hq2, hc2⟩, _⟩ := go_commit h1 hf1 rfl
  refine ⟨s2, _, _, h2, hf2, rfl, rfl, rfl, rfl, fun t ht => ?_, fun l => ?_, ?_⟩
  · rw [ho2 t ht, ho1 t ht, put_ne _ _ ht]; rfl
  · rw [hq2, hq1]; rfl
  · rw [hc2, hc1]; rfl

/-- While its program is where it was, a connection is as it was. -/
theorem owner_still {σ} {env : Env σ} {p : Profile} {devices : List Device} {w : World σ}
    {ls0 ls : List (Label σ)} {s s' : Cfg σ} (h0 : Cfg.Reach env p (Cfg.init devices w) ls0 s)
    (h : Cfg.Reach env p s ls s') {u c : Nat} {f : Flight σ} (hu : s.flights u = some f)
    (hc : f.owner = some c) (hl : ∀ lb ∈ ls, prog lb ≠ some u) :
    s'.flights u = some f ∧ s'.conns c = s.conns c := by
  induction h with
  | refl => exact ⟨hu, rfl⟩
  | tail h st ih =>
    obtain ⟨h1, h2⟩ := ih (fun lb hm => hl lb (by simp [hm]))
    have h3 := (flights_other st (hl _ (by simp))).trans h1
    exact ⟨h3, (owner_conn (CInv.reach (h0.trans h)) st h3 h1 hc).trans h2⟩

/-- C49 fails even if the reply that is not read is that of an unlink, for all handlers and builds:
the client of connection 0 does not read it (program 0 does not move), connection 1 asks for "1-2",
which is available (program 1).  From then on, unless that is dropped, no connection, old or new, is sent
anything, whatever it asks for. -/
theorem C49_fails_reader {σ} (env : Env σ) (p : Profile) (w : World σ) :
    ∃ ls s f k, Cfg.Reach env p (Cfg.init [devA, devB] w) ls s ∧
      s.flights 0 = some f ∧ f.owner = some 0 ∧ f.code = .send k ∧
      (∃ g, s.flights 1 = some g ∧ g.owner = some 1 ∧ g.ev = .iterate 1 .full) ∧
      s.conns = setConn (setConn (fun _ => none) 0 (Conn.new unlinkStream)) 1 (Conn.new (importStream busB)) ∧
      ∀ ls' s', Cfg.Reach env p s ls' s' → (∀ lb ∈ ls', prog lb ≠ some 0) →
        (∀ o, .dropped 1 o ∉ ls') → ∀ c x', s'.conns c = some x' → x'.output = [] := by
  obtain ⟨s, f, k, ⟨ls, r⟩, hf, hown, hk, hhu, hha, hno, hq, hcn⟩ := unlink_stalled env p [devA, devB] w
  have hc1 : s.conns 1 = none := by rw [hcn]; rfl
  have r1 := Cfg.Reach.tail r (.connect s 1 (importStream busB) hc1)
  have r2 := Cfg.Reach.tail r1 (.iterate _ 1 1 .full (Conn.new (importStream busB)) (hno 1 (by decide))
    (by simp [setConn]) rfl (fun t g h => by
      by_cases e : t = 0
      · subst e
        rw [show s.flights 0 = some g from h] at hf; cases hf; rw [hown]; decide
      · rw [show s.flights t = none from hno t e] at h; simp at h))
  have hcode : iterTask env p (Conn.new (importStream busB)) .full = importTask p
      (Conn.new (importStream busB)) ⟨[], .unexpectedEof⟩ (.reqImport 0 busB) busB .full := by
    unfold iterTask
    rw [show (Conn.new (importStream busB)).input = importStream busB from rfl, importStream_read p busB rfl]
  rw [hcode] at r2
  obtain ⟨s3, ⟨h3, hf3, ho3, hq3, hc3⟩, _⟩ := go_lock_shared ⟨_, r2⟩ (t := 1) (l := .used)
    (put_same _ _ _) rfl rfl (hq .used) rfl (fun u g hu hg => by
      rw [put_ne _ _ hu] at hg
      by_cases e : u = 0
      · subst e
        rw [show s.flights 0 = some f from hf] at hg; cases hg; rw [hhu]; simp
      · rw [show s.flights u = none from hno u e] at hg; simp at hg)
  obtain ⟨s4, ⟨h4, hf4, ho4, hq4, hc4⟩, _⟩ := go_unlock h3 hf3 rfl
  obtain ⟨s5, ⟨ls5, r5⟩, hf5, ho5, hc5⟩ := go_ask h4 hf4 rfl rfl
  have hf0 : s5.flights 0 = some f := by
    rw [ho5 0 (by decide), ho4 0 (by decide), ho3 0 (by decide), put_ne _ _ (by decide)]; exact hf
  have hcn5 : s5.conns = setConn (setConn (fun _ => none) 0 (Conn.new unlinkStream)) 1
      (Conn.new (importStream busB)) := by rw [hc5, hc4, hc3, ← hcn]; rfl
  have hno5 : ∀ t, t ≠ 0 → t ≠ 1 → s5.flights t = none := fun t e0 e1 => by
    rw [ho5 t e1, ho4 t e1, ho3 t e1, put_ne _ _ e1]; exact hno t e0
  refine ⟨_, s5, f, k, r5, hf0, hown, hk, ⟨_, hf5, rfl, rfl⟩, hcn5, ?_⟩
  intro ls' s' hr hn0 hn1 c x' hx'
  have hstuck := (waiter_stuck hf0 (l := .used) (by rw [hhu]; simp) hf5 rfl rfl hr hn0 hn1).2.2
  by_cases e0 : c = 0
  · subst e0
    rw [(owner_still r5 hr hf0 hown hn0).2, hcn5] at hx'
    cases hx'; rfl
  by_cases e1 : c = 1
  · subst e1
    rw [(owner_still r5 hr hf5 rfl hstuck).2, hcn5] at hx'
    cases hx'; rfl
  refine (C49_freeze env p _ w _ _ r5 0 1 f _ _ hf0 (by rw [hhu]; simp) hf5 rfl rfl ls' s' hr hn0 hn1 c ?_).2
    ?_ x' hx'
  · intro t g ht ho
    by_cases t1 : t = 1
    · subst t1
      rw [hf5] at ht; cases ht; cases ho; exact e1 rfl
    · by_cases t0 : t = 0
      · subst t0; rw [hf0] at ht; cases ht; rw [hown] at ho; cases ho; exact e0 rfl
      · rw [hno5 t t0 t1] at ht; simp at ht
  · rw [hcn5]
    simp [setConn, e0, e1]

/-! ## What a stalled reply does not block -/

/-- C49 for submits and unlinks (what is missing: imports, and connections that end while they have a
device, see `C49_fails_reader`): any set `F` of clients may stop reading, at any time; everything else
is fair.  If from time `N` on nobody imports a device and no connection that has one ends — listings,
submits, unlinks, additions and removals of devices go on — then every submit and every unlink is
answered, unless its own client is in `F`, and then it has been handled and only the sending of
the reply is left. -/
theorem C49_transfers_partial {σ} (env : Env σ) (p : Profile) (devices : List Device) (w : World σ)
    (e : Exec env p (Cfg.init devices w)) (F : Nat → Prop) (hfair : e.FairBut F) (N : Nat)
    (hq : ∀ n, N ≤ n → ∀ u f c x, (e.state n).flights u = some f → f.owner = some c →
      (e.state n).conns c = some x → ¬ Writes p x)
    (n t c : Nat) (f : Flight σ) (x : Conn) (hN : N ≤ n) (ht : (e.state n).flights t = some f)
    (hc : f.owner = some c) (hx : (e.state n).conns c = some x) (htr : Transfers p x) :
    ∃ m, n ≤ m ∧ (e.label m = .ended t ∨ (∃ o, e.label m = .dropped t o) ∨
      F c ∧ ∃ g k, (e.state m).flights t = some g ∧ g.owner = some c ∧ g.code = .send k) := by
  obtain ⟨m, hm, h⟩ := reads_end e hfair (L := fun l => l = .used) (N := N) (fun l hl n hn u f hu => by
    subst hl
    obtain ⟨h1, h2⟩ := obeys_reach (e.reach n) (fun l' m => l' = .used → m = .r) u f hu
    cases ho : f.owner with
    | none => exact h2 ho (fun d _ => addTask_locks d) (fun i _ => removeTask_locks i)
    | some c =>
      obtain ⟨x, hx, _⟩ := ((CInv.reach (e.reach n)).fl u f hu).owner c ho
      exact h1 c x ho hx (fun w' => (iterTask_reads env p x w' (hq n hn u f c x hu ho hx)).mono (fun _ _ h _ => h)))
    26 n t f hN ht (within_reach (e.reach n) t f ht)
    ((obeys_reach (e.reach n) _ t f ht).1 c x hc hx (fun w' => iterTask_transfers env p x w' htr))
  refine ⟨m, hm, ?_⟩
  rcases h with h | h | ⟨g, c', k, h1, h2, h3, h4, h5⟩
  · exact Or.inl h
  · exact Or.inr (Or.inl h)
  · rw [hc] at h3; cases h3
    exact Or.inr (Or.inr ⟨h4, g, k, h1, h2, h5⟩)

/-- C49 for all commands but imports, listings included: if moreover no device is added or removed
(what is missing: that, imports, and connections that end while they have a device). -/
theorem C49_commands_partial {σ} (env : Env σ) (p : Profile) (devices : List Device) (w : World σ)
    (e : Exec env p (Cfg.init devices w)) (F : Nat → Prop) (hfair : e.FairBut F) (N : Nat)
    (hq : ∀ n, N ≤ n → ∀ u f, (e.state n).flights u = some f → ∃ c x, f.owner = some c ∧
      (e.state n).conns c = some x ∧ ¬ Writes p x)
    (n t : Nat) (f : Flight σ) (hN : N ≤ n) (ht : (e.state n).flights t = some f) :
    ∃ m, n ≤ m ∧ (e.label m = .ended t ∨ (∃ o, e.label m = .dropped t o) ∨
      ∃ c, F c ∧ f.owner = some c ∧ ∃ g k, (e.state m).flights t = some g ∧ g.owner = some c ∧
        g.code = .send k) := by
  have hr : ∀ n, N ≤ n → ∀ u f, (e.state n).flights u = some f → f.Obeys (fun _ m => m = .r) := by
    intro n hn u f hu
    obtain ⟨c, x, ho, hx, hw⟩ := hq n hn u f hu
    exact (obeys_reach (e.reach n) _ u f hu).1 c x ho hx (fun w' => iterTask_reads env p x w' hw)
  obtain ⟨m, hm, h⟩ := reads_end e hfair (L := fun _ => True) (N := N) (fun l _ n hn u f hu => by
      obtain ⟨h1, h2⟩ := hr n hn u f hu
      exact ⟨h1.mono (fun _ _ h _ => h), fun l' m' h' _ => h2 l' m' h'⟩)
    26 n t f hN ht (within_reach (e.reach n) t f ht)
    ⟨(hr n hN t f ht).1.mono (fun _ _ _ => trivial), fun _ _ _ => trivial⟩
  refine ⟨m, hm, ?_⟩
  rcases h with h | h | ⟨g, c', k, h1, h2, h3, h4, h5⟩
  · exact Or.inl h
  · exact Or.inr (Or.inl h)
  · exact Or.inr (Or.inr ⟨c', h4, h3, g, k, h1, h2, h5⟩)

theorem unlink_not_writes (p : Profile) : ¬ Writes p (Conn.new unlinkStream) := by
  rintro (⟨st, b, rest, h⟩ | ⟨h, _⟩)
  · rw [show (Conn.new unlinkStream).input = unlinkStream from rfl, unlinkStream_read] at h
    simp [cmdUnlink] at h
  · exact h rfl

section
variable {σ : Type} {env : Env σ} {p : Profile} {s : Cfg σ} {t : Nat} {f : Flight σ}

theorem st_request {l m k} (ht : s.flights t = some f) (hk : f.code = .lock l m k) (hw : f.waiting = false) :
    ∃ s', Cfg.Step env p s (.inner t) s' ∧ s'.flights = upd s.flights t (some { f with waiting := true }) ∧
      s'.queue = upd s.queue l (s.queue l ++ [t]) ∧ s'.conns = s.conns :=
  ⟨_, .request s t f l m k ht hk hw, rfl, rfl, rfl⟩

theorem st_grant {l m k q} (ht : s.flights t = some f) (hk : f.code = .lock l m k) (hw : f.waiting = true)
    (hq : s.queue l = t :: q)
    (hc : ∀ u g h, s.flights u = some g → g.held l = some h → compatible m h = true) :
    ∃ s', Cfg.Step env p s (.inner t) s' ∧
      s'.flights = upd s.flights t (some { f with code := k, waiting := false, held := upd f.held l (some m) }) ∧
      s'.conns = s.conns :=
  ⟨_, .grant s t f l m k q ht hk hw hq hc, rfl, rfl⟩

theorem st_commit {g k} (ht : s.flights t = some f) (hk : f.code = .commit g k) :
    ∃ s', Cfg.Step env p s (.effect t f.ev) s' ∧
      s'.flights = upd s.flights t (some { f with code := k s.shared.world, committed := true }) ∧
      s'.conns = s.conns :=
  ⟨_, .commit s t f g k ht hk, rfl, rfl⟩

theorem st_send {k} (ht : s.flights t = some f) (hk : f.code = .send k) :
    ∃ s', Cfg.Step env p s (.inner t) s' ∧ s'.flights = upd s.flights t (some { f with code := k }) ∧
      s'.conns = s.conns :=
  ⟨_, .send s t f k ht hk, rfl, rfl⟩

theorem st_unlock {l k} (ht : s.flights t = some f) (hk : f.code = .unlock l k) :
    ∃ s', Cfg.Step env p s (.inner t) s' ∧
      s'.flights = upd s.flights t (some { f with code := k, held := upd f.held l none }) ∧
      s'.conns = s.conns :=
  ⟨_, .unlock s t f l k ht hk, rfl, rfl⟩

end

/-- `C49_transfers_partial` and `C49_commands_partial` meet: the client of connection 0 never reads the
reply to its unlink; connection 1 sends an unlink (program 1), which is answered. -/
example : ∃ e : Exec Samples.env dev (Cfg.init [devA] Samples.world), e.FairBut (fun c => c = 0) ∧ ∃ N,
    (∀ n, N ≤ n → ∃ f k, (e.state n).flights 0 = some f ∧ f.owner = some 0 ∧ f.code = .send k) ∧
    (∀ n, N ≤ n → ∀ u f, (e.state n).flights u = some f → ∃ c x, f.owner = some c ∧
      (e.state n).conns c = some x ∧ ¬ Writes dev x) ∧
    (∃ n f x, N ≤ n ∧ (e.state n).flights 1 = some f ∧ f.owner = some 1 ∧ (e.state n).conns 1 = some x ∧
      Transfers dev x) := by
  obtain ⟨s, f, k, ⟨ls, r⟩, hf, hown, hk, hhu, hha, hno, hq, hcn⟩ := unlink_stalled Samples.env dev [devA] Samples.world
  have hc1 : s.conns 1 = none := by rw [hcn]; rfl
  have idle1 : ∀ t g, s.flights t = some g → g.owner ≠ some 1 := fun t g h => by
    by_cases e : t = 0
    · subst e; rw [hf] at h; cases h; rw [hown]; decide
    · rw [hno t e] at h; simp at h
  -- the steps of connection 1
  obtain ⟨s1, t1, f1, q1, c1⟩ : ∃ s1, Cfg.Step Samples.env dev s (.outside (.connect 1 unlinkStream)) s1 ∧
      s1.flights = s.flights ∧ s1.queue = s.queue ∧ s1.conns = setConn s.conns 1 (Conn.new unlinkStream) :=
    ⟨_, .connect s 1 unlinkStream hc1, rfl, rfl, rfl⟩
  obtain ⟨s2, t2, f2, q2, c2⟩ : ∃ s2, Cfg.Step Samples.env dev s1 (.start 1 (.iterate 1 .full)) s2 ∧
      s2.flights = upd s.flights 1 (some (Flight.start (.iterate 1 .full) (some 1)
        (unlinkTask dev (Conn.new unlinkStream) ⟨[], .unexpectedEof⟩ cmdUnlink ⟨2, 9, 65538, 0, 0⟩ .full))) ∧
      s2.queue = s.queue ∧ s2.conns = s1.conns :=
    ⟨_, .iterate s1 1 1 .full (Conn.new unlinkStream) (by rw [f1]; exact hno 1 (by decide))
      (by rw [c1]; simp [setConn]) rfl (by intro t g h; rw [f1] at h; exact idle1 t g h),
      by rw [← unlinkStream_task Samples.env, ← f1]; rfl, q1, rfl⟩
  have g2 := (congrFun f2 1).trans (upd_self _ _ _)
  obtain ⟨s3, t3, f3, q3, c3⟩ := st_request (env := Samples.env) (p := dev) g2 rfl rfl
  have g3 := (congrFun f3 1).trans (upd_self _ _ _)
  obtain ⟨s4, t4, f4, c4⟩ := st_grant (env := Samples.env) (p := dev) (q := []) g3 rfl rfl
    (by rw [q3, upd_self, q2, hq]; rfl) (by
      intro u g m hu hg
      by_cases e1 : u = 1
      · subst e1; rw [g3] at hu; cases hu; simp [Flight.start] at hg
      · rw [f3, upd_ne _ _ e1, f2, upd_ne _ _ e1] at hu
        by_cases e0 : u = 0
        · subst e0; rw [hf] at hu; cases hu; rw [hhu] at hg; cases hg; rfl
        · rw [hno u e0] at hu; simp at hu)
  have g4 := (congrFun f4 1).trans (upd_self _ _ _)
  obtain ⟨s5, t5, f5, c5⟩ := st_commit (env := Samples.env) (p := dev) g4 rfl
  have g5 := (congrFun f5 1).trans (upd_self _ _ _)
  obtain ⟨s6, t6, f6, c6⟩ := st_send (env := Samples.env) (p := dev) g5 rfl
  have g6 := (congrFun f6 1).trans (upd_self _ _ _)
  obtain ⟨s7, t7, f7, c7⟩ := st_unlock (env := Samples.env) (p := dev) g6 rfl
  have g7 := (congrFun f7 1).trans (upd_self _ _ _)
  obtain ⟨s8, t8, f8⟩ : ∃ s8, Cfg.Step Samples.env dev s7 (.ended 1) s8 ∧ s8.flights = upd s7.flights 1 none :=
    ⟨_, .finish s7 1 _ _ g7 rfl, rfl⟩
  have oth : ∀ u, u ≠ 1 → s2.flights u = s.flights u ∧ s3.flights u = s.flights u ∧ s4.flights u = s.flights u ∧
      s5.flights u = s.flights u ∧ s6.flights u = s.flights u ∧ s7.flights u = s.flights u ∧
      s8.flights u = s.flights u := by
    intro u hu
    simp only [f8, f7, f6, f5, f4, f3, f2, upd_ne _ _ hu, and_self]
  have cs : s2.conns = s1.conns ∧ s3.conns = s1.conns ∧ s4.conns = s1.conns ∧ s5.conns = s1.conns ∧
      s6.conns = s1.conns ∧ s7.conns = s1.conns := by
    simp only [c7, c6, c5, c4, c3, c2, and_self]
  have g8 : s8.flights 1 = none := (congrFun f8 1).trans (upd_self _ _ _)
  have h80 : s8.conns 0 = s1.conns 0 := by
    rw [owner_conn (CInv.reach (((((((r.tail t1).tail t2).tail t3).tail t4).tail t5).tail t6).tail t7)) t8
      (((oth 0 (by decide)).2.2.2.2.2.2).trans hf) (((oth 0 (by decide)).2.2.2.2.2.1).trans hf) hown, cs.2.2.2.2.2]
  have h10 : s1.conns 0 = some (Conn.new unlinkStream) := by rw [c1, hcn]; rfl
  have h11 : s1.conns 1 = some (Conn.new unlinkStream) := by rw [c1]; simp [setConn]
  let P (s' : Cfg Nat) : Prop := s'.flights 0 = some f ∧ s'.conns 0 = some (Conn.new unlinkStream) ∧
    (∀ u, u ≠ 0 → u ≠ 1 → s'.flights u = none) ∧
    (∀ g, s'.flights 1 = some g → g.owner = some 1 ∧ s'.conns 1 = some (Conn.new unlinkStream))
  have hP : ∀ s', s'.flights 0 = some f → s'.conns = s1.conns → (∀ u, u ≠ 0 → u ≠ 1 → s'.flights u = none) →
      (∀ g, s'.flights 1 = some g → g.owner = some 1) → P s' := fun s' h1 h2 h3 h4 =>
    ⟨h1, by rw [h2, h10], h3, fun g hg => ⟨h4 g hg, by rw [h2, h11]⟩⟩
  have hu0 : ∀ u, u ≠ 0 → u ≠ 1 → s.flights u = none := fun u h _ => hno u h
  have p0 : P s := ⟨hf, by rw [hcn]; rfl, hu0, fun g hg => by rw [hno 1 (by decide)] at hg; simp at hg⟩
  have p1 : P s1 := hP s1 (by rw [f1]; exact hf) rfl (fun u a b => by rw [f1]; exact hno u a) (fun g hg => by
    rw [f1, hno 1 (by decide)] at hg; simp at hg)
  have p2 : P s2 := hP s2 ((oth 0 (by decide)).1.trans hf) cs.1 (fun u a b => ((oth u b).1).trans (hno u a))
    (fun g hg => by rw [g2] at hg; cases hg; rfl)
  have p3 : P s3 := hP s3 ((oth 0 (by decide)).2.1.trans hf) cs.2.1 (fun u a b => ((oth u b).2.1).trans (hno u a))
    (fun g hg => by rw [g3] at hg; cases hg; rfl)
  have p4 : P s4 := hP s4 ((oth 0 (by decide)).2.2.1.trans hf) cs.2.2.1
    (fun u a b => ((oth u b).2.2.1).trans (hno u a)) (fun g hg => by rw [g4] at hg; cases hg; rfl)
  have p5 : P s5 := hP s5 ((oth 0 (by decide)).2.2.2.1.trans hf) cs.2.2.2.1
    (fun u a b => ((oth u b).2.2.2.1).trans (hno u a)) (fun g hg => by rw [g5] at hg; cases hg; rfl)
  have p6 : P s6 := hP s6 ((oth 0 (by decide)).2.2.2.2.1.trans hf) cs.2.2.2.2.1
    (fun u a b => ((oth u b).2.2.2.2.1).trans (hno u a)) (fun g hg => by rw [g6] at hg; cases hg; rfl)
  have p7 : P s7 := hP s7 ((oth 0 (by decide)).2.2.2.2.2.1.trans hf) cs.2.2.2.2.2
    (fun u a b => ((oth u b).2.2.2.2.2.1).trans (hno u a)) (fun g hg => by rw [g7] at hg; cases hg; rfl)
  have p8 : P s8 := ⟨(oth 0 (by decide)).2.2.2.2.2.2.trans hf, by rw [h80, h10],
    fun u a b => ((oth u b).2.2.2.2.2.2).trans (hno u a), fun g hg => by rw [g8] at hg; simp at hg⟩
  obtain ⟨e, hs, hl, hp⟩ := Spec.Exec.after r (.cons t1 <| .cons t2 <| .cons t3 <| .cons t4 <| .cons t5 <|
    .cons t6 <| .cons t7 <| .cons t8 <| .rest _ _ s8)
  have hPn : ∀ n, ls.length ≤ n → P (e.state n) := by
    intro n hn
    obtain ⟨k, rfl⟩ := Nat.exists_eq_add_of_le hn
    rw [hs]
    match k with
    | 0 => exact p0
    | 1 => exact p1
    | 2 => exact p2
    | 3 => exact p3
    | 4 => exact p4
    | 5 => exact p5
    | 6 => exact p6
    | 7 => exact p7
    | k + 8 => exact p8
  refine ⟨e, fun t n => ?_, ls.length, fun n hn => ⟨f, k, (hPn n hn).1, hown, hk⟩, fun n hn u g hu => ?_,
    ls.length + 2, _, Conn.new unlinkStream, by omega, (congrArg (fun s => s.flights 1) (hs 2)).trans g2, rfl, ?_, ?_⟩
  · refine ⟨ls.length + (n + 8), by omega, ?_⟩
    have hst : e.state (ls.length + (n + 8)) = s8 := hs (n + 8)
    rw [hst]
    by_cases e0 : t = 0
    · subst e0
      exact Or.inr (Or.inr ⟨f, 0, k, p8.1, hown, rfl, hk⟩)
    · refine Or.inr (Or.inl ?_)
      rintro ⟨lb, s', st, ha, hpr⟩
      have hn : s8.flights t = none := by
        by_cases e1 : t = 1
        · subst e1; exact g8
        · exact p8.2.2.1 t e0 e1
      obtain ⟨g, hg, _⟩ := first_step st hn hpr
      rw [hg] at ha; exact ha
  · obtain ⟨a1, a2, a3, a4⟩ := hPn n hn
    by_cases e0 : u = 0
    · subst e0
      rw [a1] at hu; cases hu
      exact ⟨0, _, hown, a2, unlink_not_writes dev⟩
    · by_cases e1 : u = 1
      · subst e1
        obtain ⟨b1, b2⟩ := a4 g hu
        exact ⟨1, _, b1, b2, unlink_not_writes dev⟩
      · rw [a3 u e0 e1] at hu; simp at hu
  · exact (congrArg (fun s => s.conns 1) (hs 2)).trans (((congrFun cs.1 1)).trans h11)
  · exact Or.inr ⟨_, _, _, unlinkStream_read dev⟩

end Usbip
