import Verif.Lemmas.Fair
/-! Helper lemmas: what happens while a program with a guard does not move (C49). -/

namespace Usbip
open Spec

/-- A program that has not got the lock on the used devices and, without it, cannot send anything:
the connection's output stays `out`. -/
def Task.Mute {σ} (out : Bytes) : Task σ → Prop
  | .lock .used _ _ => True
  | .commit _ k => ∀ w, (k w).Mute out
  | .done (.conn y) => y.output = out
  | _ => False

theorem iterTask_Mute {σ} (env : Env σ) (p : Profile) (x : Conn) (w : WriteRes) :
    (iterTask env p x w).Mute x.output := by
  unfold iterTask
  split
  · trivial
  · trivial
  · trivial
  · trivial
  · unfold releaseTask
    dsimp only
    split
    · exact fun _ => rfl
    · trivial
  · exact fun _ => rfl

/-- While the holder `u` of a lock does not move, a program `t` that waits for it for writing stays
where it is, unless it is dropped. -/
theorem waiter_stuck {σ} {env : Env σ} {p : Profile} {s s' : Cfg σ} {ls : List (Label σ)} {l : Lk} {u t : Nat}
    {g f : Flight σ} {k : Task σ} (hu : s.flights u = some g) (hg : g.held l ≠ none)
    (ht : s.flights t = some f) (hw : f.waiting = true) (hk : f.code = .lock l .w k)
    (h : Cfg.Reach env p s ls s') (hnu : ∀ lb ∈ ls, prog lb ≠ some u) (hnt : ∀ o, .dropped t o ∉ ls) :
    s'.flights u = some g ∧ s'.flights t = some f ∧ ∀ lb ∈ ls, prog lb ≠ some t := by
  induction h with
  | refl => exact ⟨hu, ht, fun _ h => nomatch h⟩
  | @tail ls s1 lb s2 h st ih =>
    obtain ⟨h1, h2, h3⟩ := ih (fun lb' hm => hnu lb' (by simp [hm])) (fun o hm => hnt o (by simp [hm]))
    have hlu : prog lb ≠ some u := hnu lb (by simp)
    have hlt : prog lb ≠ some t := by
      intro hp
      cases st <;> simp only [prog, Option.some.injEq, reduceCtorEq] at hp <;> subst hp
      case abandon f' hf hc => exact hnt f'.owner (by simp)
      case request hf hk' hw' =>
        rw [h2] at hf; cases hf; rw [hw] at hw'; simp at hw'
      case grant hf hk' hw' hq hc =>
        rw [h2] at hf; cases hf
        rw [hk] at hk'; cases hk'
        cases hm : g.held l with
        | none => exact hg hm
        | some m =>
          have := hc u g m h1 hm
          simp [compatible] at this
      case iterate hf _ _ _ => rw [h2] at hf; simp at hf
      case add hf => rw [h2] at hf; simp at hf
      case remove hf => rw [h2] at hf; simp at hf
      all_goals
        rename_i hf hk'
        rw [h2] at hf; cases hf; rw [hk] at hk'; simp at hk'
    refine ⟨(flights_other st hlu).trans h1, (flights_other st hlt).trans h2, fun lb' hm => ?_⟩
    rcases List.mem_append.mp hm with hm | hm
    · exact h3 lb' hm
    · rw [List.mem_singleton.mp hm]; exact hlt

/-- What connection `c` has been sent. -/
def sentTo {σ} (s : Cfg σ) (c : Nat) : Bytes :=
  match s.conns c with
  | some x => x.output
  | none => []

/-- Connection `c` cannot be sent anything: nobody ahead of `t` in the queue works for it, and what
works for it has not got the lock. -/
structure Frozen {σ} (t c : Nat) (out : Bytes) (s : Cfg σ) : Prop where
  ahead : ∃ pre post, s.queue .used = pre ++ t :: post ∧
    ∀ v ∈ pre, ∀ f, s.flights v = some f → f.owner ≠ some c
  mute : ∀ v f, s.flights v = some f → f.owner = some c → f.held .used = none ∧ f.code.Mute out
  sent : sentTo s c = out

theorem sentTo_conns {σ} {s s' : Cfg σ} (h : s'.conns = s.conns) (c : Nat) : sentTo s' c = sentTo s c := by
  unfold sentTo; rw [h]

theorem sentTo_step {σ} {env : Env σ} {p : Profile} {s s' : Cfg σ} {lb : Label σ} (st : Cfg.Step env p s lb s')
    {c : Nat} {out : Bytes} (hm : ∀ v f, s.flights v = some f → f.owner = some c → f.code.Mute out)
    (hs : sentTo s c = out) : sentTo s' c = out := by
  cases st with
  | connect c' input hc =>
    rw [← hs]
    unfold sentTo
    by_cases e : c = c'
    · subst e; simp [setConn, hc, Conn.new]
    · simp only [setConn_ne e]
  | cancel c' x hc hr hi =>
    rw [← hs]
    unfold sentTo
    by_cases e : c = c'
    · subst e; simp [setConn, hc]
    · simp only [setConn_ne e]
  | finish u f x hu hk =>
    rw [← hs]
    cases ho : f.owner with
    | none => exact sentTo_conns (by simp only [finished, ho]) c
    | some c' =>
      cases x with
      | call r => exact sentTo_conns (by simp only [finished, ho]) c
      | conn y =>
        unfold sentTo
        simp only [finished, ho]
        by_cases e : c = c'
        · subst e
          have := hm u f hu ho
          rw [hk] at this
          simp only [setConn, if_true]
          exact (show y.output = out from this).trans hs.symm
        · simp only [setConn_ne e]
  | abandon u f hu hc =>
    rw [← hs]
    cases ho : f.owner with
    | none => exact sentTo_conns (by simp only [dropped, ho]) c
    | some c' =>
      cases hx : s.conns c' with
      | none => exact sentTo_conns (by simp only [dropped, ho, hx]) c
      | some x =>
        unfold sentTo
        simp only [dropped, ho, hx]
        by_cases e : c = c'
        · subst e; simp [setConn, hx]
        · simp only [setConn_ne e]
  | _ => rw [← hs]; rfl

theorem Frozen.step {σ} {env : Env σ} {p : Profile} {s s' : Cfg σ} {lb : Label σ} {t c : Nat} {out : Bytes}
    (hF : Frozen t c out s) (hQ : QInv s) (st : Cfg.Step env p s lb s') (ht : prog lb ≠ some t) :
    Frozen t c out s' := by
  obtain ⟨⟨pre, post, hq, hpre⟩, hmute, hsent⟩ := hF
  obtain ⟨pre', post', hq', hsub, hget, hnp⟩ := queue_step hQ st hq ht
  refine ⟨⟨pre', post', hq', fun v hv f hf => ?_⟩, fun v g hg ho => ?_,
    sentTo_step st (fun v f hf ho => (hmute v f hf ho).2) hsent⟩
  · have hne : prog lb ≠ some v := fun e => hnp v e hv
    rw [flights_other st hne] at hf
    exact hpre v (hsub.subset hv) f hf
  · rcases flight_step st hg with ⟨f, hf, _, ho', hcs⟩ | ⟨_, _, ⟨c', w, x, rfl, hx, _⟩ | ⟨d, rfl⟩ | ⟨i, rfl⟩⟩
    · obtain ⟨hh, hmu⟩ := hmute v f hf (ho' ▸ ho)
      by_cases hgu : g.held .used = none
      · refine ⟨hgu, ?_⟩
        clear hg hf
        generalize f.code = fc at *
        generalize f.held = fh at *
        generalize g.code = gc at *
        generalize hgh : g.held = gh at *
        cases hcs with
        | same => exact hmu
        | lock l m k h =>
          cases l with
          | used => simp [upd_self] at hgu
          | avail => exact absurd hmu id
        | commit => exact hmu _
        | _ => exact absurd hmu id
      · have := hget v f g hf hh hg hgu
        exact absurd (ho' ▸ ho) (hpre v (by rw [this]; simp) f hf)
    · simp only [Flight.start, Option.some.injEq] at ho
      subst ho
      refine ⟨rfl, ?_⟩
      have : x.output = out := by rw [← hsent]; unfold sentTo; rw [hx]
      rw [← this]
      exact iterTask_Mute env p x w
    · simp [Flight.start] at ho
    · simp [Flight.start] at ho

/-! ### Programs that only read -/

/-- All the locks the program will take are among `ok`. -/
def Task.Locks {σ} (ok : Lk → Mode → Prop) : Task σ → Prop
  | .done _ => True
  | .lock l m k => ok l m ∧ k.Locks ok
  | .unlock _ k => k.Locks ok
  | .getUsed k => ∀ v, (k v).Locks ok
  | .getAvail k => ∀ v, (k v).Locks ok
  | .putUsed _ k => k.Locks ok
  | .putAvail _ k => k.Locks ok
  | .commit _ k => ∀ w, (k w).Locks ok
  | .send k => k.Locks ok

/-- All the locks the program has or will take are among `ok`. -/
def Flight.Obeys {σ} (ok : Lk → Mode → Prop) (f : Flight σ) : Prop :=
  f.code.Locks ok ∧ ∀ l m, f.held l = some m → ok l m

theorem Flight.Obeys.step {σ} {ok : Lk → Mode → Prop} {f g : Flight σ}
    (st : CodeStep f.code f.held g.code g.held) (h : f.Obeys ok) : g.Obeys ok := by
  obtain ⟨h1, h2⟩ := h
  unfold Flight.Obeys
  generalize f.code = fc at *
  generalize f.held = fh at *
  generalize g.code = gc at *
  generalize g.held = gh at *
  cases st with
  | same => exact ⟨h1, h2⟩
  | lock l m k =>
    refine ⟨h1.2, fun l' m' hm => ?_⟩
    by_cases e : l' = l
    · subst e; rw [upd_self] at hm; cases hm; exact h1.1
    · rw [upd_ne _ _ e] at hm; exact h2 l' m' hm
  | unlock l k =>
    refine ⟨h1, fun l' m' hm => ?_⟩
    by_cases e : l' = l
    · subst e; rw [upd_self] at hm; cases hm
    · rw [upd_ne _ _ e] at hm; exact h2 l' m' hm
  | getUsed => exact ⟨h1 _, h2⟩
  | getAvail => exact ⟨h1 _, h2⟩
  | putUsed => exact ⟨h1, h2⟩
  | putAvail => exact ⟨h1, h2⟩
  | commit => exact ⟨h1 _, h2⟩
  | send => exact ⟨h1, h2⟩

/-- What a program in flight locks is determined by what it is an execution of. -/
theorem obeys_reach {σ} {env : Env σ} {p : Profile} {devices : List Device} {w : World σ}
    {ls : List (Label σ)} {s : Cfg σ} (h : Cfg.Reach env p (Cfg.init devices w) ls s)
    (ok : Lk → Mode → Prop) : ∀ t f, s.flights t = some f →
      (∀ c x, f.owner = some c → s.conns c = some x → (∀ w, (iterTask env p x w).Locks ok) → f.Obeys ok) ∧
      (f.owner = none → (∀ d, f.ev = .addDevice d → (addTask d : Task σ).Locks ok) →
        (∀ i, f.ev = .removeDevice i → (removeTask i : Task σ).Locks ok) → f.Obeys ok) := by
  induction h with
  | refl => intro t f h; simp [Cfg.init] at h
  | @tail ls s lb s' h st ih =>
    intro t g ht
    have nothing : ∀ l m, (fun _ : Lk => (none : Option Mode)) l = some m → ok l m :=
      fun _ _ h => nomatch h
    rcases flight_step st ht with ⟨f, hf, hev, hown, hcs⟩ | ⟨_, hcn, ⟨c', w', x', rfl, hx', _⟩ | ⟨d, rfl⟩ | ⟨i, rfl⟩⟩
    · obtain ⟨h1, h2⟩ := ih t f hf
      refine ⟨fun c x ho hx hw => ?_, fun ho hd hi => ?_⟩
      · have hof : f.owner = some c := hown ▸ ho
        rw [owner_conn (CInv.reach h) st ht hf hof] at hx
        exact (h1 c x hof hx hw).step hcs
      · exact (h2 (hown ▸ ho) (fun d e => hd d (hev.trans e)) (fun i e => hi i (hev.trans e))).step hcs
    · refine ⟨fun c x ho hx hw => ?_, fun ho => by simp [Flight.start] at ho⟩
      cases ho
      rw [hcn, hx'] at hx; cases hx
      exact ⟨hw w', nothing⟩
    · exact ⟨fun c x ho => by simp [Flight.start] at ho, fun _ hd _ => ⟨hd d rfl, nothing⟩⟩
    · exact ⟨fun c x ho => by simp [Flight.start] at ho, fun _ _ hi => ⟨hi i rfl, nothing⟩⟩

theorem Task.Locks.mono {σ} {ok ok' : Lk → Mode → Prop} {k : Task σ} (h : k.Locks ok)
    (hm : ∀ l m, ok l m → ok' l m) : k.Locks ok' := by
  induction k with
  | done => trivial
  | lock l m k ih => exact ⟨hm l m h.1, ih h.2⟩
  | unlock l k ih => exact ih h
  | getUsed k ih => exact fun v => ih v (h v)
  | getAvail k ih => exact fun v => ih v (h v)
  | putUsed v k ih => exact ih h
  | putAvail v k ih => exact ih h
  | commit g k ih => exact fun w => ih w (h w)
  | send k ih => exact ih h

theorem iterTask_reads {σ} (env : Env σ) (p : Profile) (x : Conn) (w : WriteRes) (h : ¬ Writes p x) :
    (iterTask env p x w).Locks (fun _ m => m = .r) := by
  unfold iterTask
  split
  · exact ⟨rfl, rfl, fun _ _ => trivial⟩
  · rename_i h'; exact absurd (Or.inl ⟨_, _, _, h'⟩) h
  · refine ⟨rfl, fun u => ?_⟩
    dsimp only
    split
    · exact fun _ => trivial
    · exact fun _ => trivial
  · exact ⟨rfl, fun _ => trivial⟩
  · rename_i e h'
    unfold releaseTask
    dsimp only
    split
    · exact fun _ => trivial
    · rename_i hc
      exact absurd (Or.inr ⟨by rw [hc]; simp, e, h'⟩) h
  · exact fun _ => trivial

theorem iterTask_transfers {σ} (env : Env σ) (p : Profile) (x : Conn) (w : WriteRes) (h : Transfers p x) :
    (iterTask env p x w).Locks (fun l _ => l = .used) := by
  unfold iterTask
  rcases h with ⟨_, _, _, _, _, _, _, _, _, _, h⟩ | ⟨_, _, _, h⟩ <;> rw [h]
  · refine ⟨rfl, fun u => ?_⟩
    dsimp only
    split
    · exact fun _ => trivial
    · exact fun _ => trivial
  · exact ⟨rfl, fun _ => trivial⟩

theorem addTask_locks {σ} (d : Device) : (addTask d : Task σ).Locks (fun l m => l = .used → m = .r) :=
  ⟨by simp, fun _ _ => trivial⟩

theorem removeTask_locks {σ} (i : Bytes) : (removeTask i : Task σ).Locks (fun l m => l = .used → m = .r) := by
  refine ⟨by simp, fun a => ?_⟩
  dsimp only
  split
  · exact fun _ => trivial
  · exact ⟨fun _ => rfl, fun _ _ => trivial⟩

section
variable {σ : Type} {env : Env σ} {p : Profile} {devices : List Device} {w : World σ}
  (e : Exec env p (Cfg.init devices w))

/-- The first in the queue of a lock that is only read gets it, whoever does not read their replies. -/
theorem head_reads {F : Nat → Prop} (hfair : e.FairBut F) {l : Lk} {N : Nat}
    (hr : ∀ n, N ≤ n → ∀ u f, (e.state n).flights u = some f → f.Obeys (fun l' m => l' = l → m = .r))
    (n t : Nat) (q : List Nat) (hN : N ≤ n) (hq : (e.state n).queue l = t :: q) : e.Moves t n := by
  refine Classical.byContradiction fun hno => ?_
  have hnm : ∀ m, n ≤ m → prog (e.label m) ≠ some t := fun m hm hp => hno ⟨m, hm, hp⟩
  have hhead : ∀ k, ∃ q', (e.state (n + k)).queue l = t :: q' := by
    intro k
    induction k with
    | zero => exact ⟨q, hq⟩
    | succ k ih =>
      obtain ⟨q', hq'⟩ := ih
      obtain ⟨pre, post, h1, h2, _⟩ := queue_step (QInv.reach (e.reach (n + k))) (e.step (n + k))
        (pre := []) hq' (hnm (n + k) (by omega))
      rw [List.sublist_nil.1 h2] at h1
      exact ⟨post, h1⟩
  obtain ⟨m, hm, h⟩ := hfair t n
  obtain ⟨k, rfl⟩ := Nat.exists_eq_add_of_le hm
  obtain ⟨q', hq'⟩ := hhead k
  obtain ⟨f, m', k', hf, hw, hc⟩ := ((QInv.reach (e.reach (n + k))).queue l t).1 (by rw [hq']; simp)
  rcases h with h | h | ⟨f', c, k'', hf', _, _, hk''⟩
  · exact hnm _ hm h
  · refine h ⟨_, _, .grant _ t f l m' k' q' hf hc hw hq' (fun u g m'' hu hg => ?_), trivial, rfl⟩
    have h1 := (hr _ (by omega) t f hf).1
    rw [hc] at h1
    have h2 := (hr _ (by omega) u g hu).2 l m'' hg rfl
    rw [h1.1 rfl, h2]; rfl
  · rw [hf] at hf'; cases hf'; rw [hc] at hk''; simp at hk''

/-- A program that takes only locks that are only read ends, unless its own client does not read. -/
theorem reads_end {F : Nat → Prop} (hfair : e.FairBut F) {L : Lk → Prop} {N : Nat}
    (hr : ∀ l, L l → ∀ n, N ≤ n → ∀ u f, (e.state n).flights u = some f →
      f.Obeys (fun l' m => l' = l → m = .r)) :
    ∀ b n t f, N ≤ n → (e.state n).flights t = some f → f.Within b → f.Obeys (fun l _ => L l) →
      ∃ m, n ≤ m ∧ (e.label m = .ended t ∨ (∃ o, e.label m = .dropped t o) ∨
        ∃ g c k, (e.state m).flights t = some g ∧ g.owner = some c ∧ f.owner = some c ∧ F c ∧ g.code = .send k) := by
  intro b
  induction b with
  | zero =>
    intro n u f _ hf hb
    obtain ⟨k, _, hk⟩ := hb
    split at hk <;> omega
  | succ b ih =>
    intro n t f hN hf hb ho
    have hmv : e.Moves t n ∨ ∃ m, n ≤ m ∧ ∃ g c k, (e.state m).flights t = some g ∧ g.owner = some c ∧
        f.owner = some c ∧ F c ∧ g.code = .send k := by
      cases hw : f.waiting with
      | true =>
        obtain ⟨l, m, k, hk⟩ := (QInv.reach (e.reach n)).waits t f hf hw
        have hl : L l := by have := ho.1; rw [hk] at this; exact this.1
        obtain ⟨pre, post, hq⟩ := List.append_of_mem
          (((QInv.reach (e.reach n)).queue l t).2 ⟨f, m, k, hf, hw, hk⟩)
        exact Or.inl (waiter_moves e (fun n t q => head_reads e hfair (hr l hl) n t q) _ n t pre post hN
          (Nat.le_refl _) hq)
      | false =>
        refine Classical.byContradiction fun hno => ?_
        have hnm : ∀ m, n ≤ m → prog (e.label m) ≠ some t := fun m hm hp => hno (Or.inl ⟨m, hm, hp⟩)
        obtain ⟨m, hm, h⟩ := hfair t n
        have hfm : (e.state m).flights t = some f := by
          rw [exec_still e hm (fun j h1 _ => hnm j h1), hf]
        rcases h with h | h | ⟨f', c, k, hf', hc, hF, hk⟩
        · exact hnm m hm h
        · exact h (canMove_of_free hfm hw)
        · rw [hfm] at hf'; cases hf'
          exact hno (Or.inr ⟨m, hm, f, c, k, hfm, hc, hc, hF, hk⟩)
    rcases hmv with hmv | ⟨m, hm, h⟩
    · obtain ⟨m, hm, hp, hs⟩ := exec_first e hmv
      have hfm := hs.trans hf
      rcases own_step (QInv.reach (e.reach m)) (e.step m) hfm hp with ⟨_, hl⟩ | ⟨_, g, hg, _⟩
      · rcases hl with hl | hl
        · exact ⟨m, hm, Or.inl hl⟩
        · exact ⟨m, hm, Or.inr (Or.inl hl)⟩
      · obtain ⟨_, hw⟩ := own_step_within (QInv.reach (e.reach m)) (e.step m) hfm hp hb
        rcases flight_step (e.step m) hg with ⟨f', hf', _, hown, hcs⟩ | ⟨hn, _⟩
        · rw [hfm] at hf'; cases hf'
          obtain ⟨m', hm', h⟩ := ih (m + 1) t g (by omega) hg (hw g hg) (ho.step hcs)
          rw [hown] at h
          exact ⟨m', by omega, h⟩
        · rw [hfm] at hn; simp at hn
    · exact ⟨m, hm, Or.inr (Or.inr h)⟩

end

end Usbip
