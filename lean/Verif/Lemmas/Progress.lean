import Verif.Lemmas.Atomic
import Verif.Spec.Locks
/-! Helper lemmas: lock order and queues. -/

namespace Usbip
open Spec

/-- The available devices are never locked before the used devices. -/
def Task.Ord {σ} : Task σ → (held : Lk → Option Mode) → Prop
  | .done _, _ => True
  | .lock l m k, held => (l = .used → held .avail = none) ∧ k.Ord (upd held l (some m))
  | .unlock l k, held => k.Ord (upd held l none)
  | .getUsed k, held => ∀ v, (k v).Ord held
  | .getAvail k, held => ∀ v, (k v).Ord held
  | .putUsed _ k, held => k.Ord held
  | .putAvail _ k, held => k.Ord held
  | .commit _ k, held => ∀ w, (k w).Ord held
  | .send k, held => k.Ord held

theorem iterTask_Ord {σ} (env : Env σ) (p : Profile) (x : Conn) (w : WriteRes) :
    (iterTask env p x w).Ord (fun _ => none) := by
  unfold iterTask
  split <;>
    (try simp only [devlistTask, importTask, submitTask, unlinkTask, releaseTask]) <;>
    repeat' (first
      | rfl
      | trivial
      | refine ⟨?_, ?_⟩
      | (simp [upd]; done)
      | intro _
      | (split <;> simp only [Task.Ord])
      | simp only [Task.Ord])

theorem addTask_Ord {σ} (d : Device) : (addTask d : Task σ).Ord (fun _ => none) := by
  simp [addTask, Task.Ord]

/-- Queues contain exactly the programs waiting for the lock; only a removal locks in the wrong
order. -/
structure QInv {σ} (s : Cfg σ) : Prop where
  queue : ∀ l t, t ∈ s.queue l ↔
    ∃ f m k, s.flights t = some f ∧ f.waiting = true ∧ f.code = .lock l m k
  nodup : ∀ l, (s.queue l).Nodup
  waits : ∀ t f, s.flights t = some f → f.waiting = true → ∃ l m k, f.code = .lock l m k
  ord : ∀ t f, s.flights t = some f → (∀ i, f.ev ≠ .removeDevice i) → f.code.Ord f.held

theorem QInv.init {σ} (devices : List Device) (w : World σ) : QInv (Cfg.init devices w) :=
  ⟨fun l t => by simp [Cfg.init], fun l => by simp [Cfg.init], fun _ _ h => by simp [Cfg.init] at h,
    fun _ _ h => by simp [Cfg.init] at h⟩

/-- A step of a program that is not waiting and changes no queue. -/
theorem QInv.run {σ} {s s' : Cfg σ} (h : QInv s) {t : Nat} {o : Option (Flight σ)}
    (hfl : s'.flights = upd s.flights t o) (hq : s'.queue = s.queue)
    (hold : ∀ f, s.flights t = some f → f.waiting = false)
    (hnew : ∀ f, o = some f → f.waiting = false)
    (hord : ∀ f, o = some f → (∀ i, f.ev ≠ .removeDevice i) → f.code.Ord f.held) : QInv s' := by
  refine ⟨fun l u => ?_, by rw [hq]; exact h.nodup, ?_, ?_⟩
  · rw [hq, h.queue]
    by_cases e : u = t
    · subst e
      constructor
      · rintro ⟨f, m, k, h1, h2, _⟩
        rw [hold f h1] at h2; simp at h2
      · rintro ⟨f, m, k, h1, h2, _⟩
        rw [hfl, upd_self] at h1
        rw [hnew f h1] at h2; simp at h2
    · rw [hfl, upd_ne _ _ e]
  · intro u f hu hw
    rcases flights_upd hfl hu with ⟨rfl, e⟩ | ⟨_, hu'⟩
    · rw [hnew f e] at hw; simp at hw
    · exact h.waits u f hu' hw
  · intro u f hu
    rcases flights_upd hfl hu with ⟨rfl, e⟩ | ⟨_, hu'⟩
    · exact hord f e
    · exact h.ord u f hu'

theorem QInv.not_waiting {σ} {s : Cfg σ} (h : QInv s) {t : Nat} {f : Flight σ}
    (ht : s.flights t = some f) (hk : ∀ l m k, f.code ≠ .lock l m k) :
    ∀ f', s.flights t = some f' → f'.waiting = false := by
  intro f' hf'
  rw [ht] at hf'; cases hf'
  cases hw : f.waiting with
  | false => rfl
  | true =>
    obtain ⟨l, m, k, e⟩ := h.waits t f ht hw
    exact absurd e (hk l m k)

theorem QInv.step {σ} {env : Env σ} {p : Profile} {s s' : Cfg σ} {lb : Label σ} (h : QInv s)
    (st : Cfg.Step env p s lb s') : QInv s' := by
  cases st with
  | connect c input hc => exact ⟨h.queue, h.nodup, h.waits, h.ord⟩
  | user f => exact ⟨h.queue, h.nodup, h.waits, h.ord⟩
  | cancel c x hc hr hi => exact ⟨h.queue, h.nodup, h.waits, h.ord⟩
  | iterate t c w x ht hc hr hi =>
    refine h.run rfl rfl (fun f hf => by rw [ht] at hf; simp at hf) (fun f hf => by cases hf; rfl)
      (fun f hf _ => by cases hf; exact iterTask_Ord env p x w)
  | add t d ht =>
    refine h.run rfl rfl (fun f hf => by rw [ht] at hf; simp at hf) (fun f hf => by cases hf; rfl)
      (fun f hf _ => by cases hf; exact addTask_Ord d)
  | remove t i ht =>
    refine h.run rfl rfl (fun f hf => by rw [ht] at hf; simp at hf) (fun f hf => by cases hf; rfl)
      (fun f hf hn => by cases hf; exact absurd rfl (hn i))
  | request t f l m k ht hk hw =>
    refine ⟨fun l' u => ?_, fun l' => ?_, ?_, ?_⟩
    · by_cases e : u = t
      · subst e
        have hself : upd s.flights u (some { f with waiting := true }) u = some { f with waiting := true } :=
          upd_self _ _ _
        by_cases el : l' = l
        · subst el
          simp only [upd_self, List.mem_append, List.mem_singleton, or_true, true_iff, Cfg.put]
          exact ⟨_, m, k, rfl, rfl, hk⟩
        · simp only [upd_ne _ _ el, Cfg.put, hself, Option.some.injEq]
          rw [h.queue]
          constructor
          · rintro ⟨f1, m1, k1, h1, h2, _⟩
            rw [ht] at h1; cases h1; rw [hw] at h2; simp at h2
          · rintro ⟨f1, m1, k1, rfl, _, h3⟩
            rw [hk] at h3; cases h3; exact absurd rfl el
      · simp only [Cfg.put, upd_ne _ _ e]
        by_cases el : l' = l
        · subst el
          simp only [upd_self, List.mem_append, List.mem_singleton, e, or_false]
          exact h.queue l' u
        · simp only [upd_ne _ _ el]
          exact h.queue l' u
    · by_cases el : l' = l
      · subst el
        simp only [upd_self, List.nodup_append, List.mem_singleton, List.nodup_cons, List.not_mem_nil,
          not_false_eq_true, List.nodup_nil, and_self, true_and]
        refine ⟨h.nodup l', ?_⟩
        rintro u hu _ rfl rfl
        obtain ⟨f1, m1, k1, h1, h2, _⟩ := (h.queue l' u).1 hu
        rw [ht] at h1; cases h1; rw [hw] at h2; simp at h2
      · simp only [upd_ne _ _ el]; exact h.nodup l'
    · intro u g hu hg
      rcases flights_upd (s' := { s.put t (some { f with waiting := true }) with
        queue := upd s.queue l (s.queue l ++ [t]) }) rfl hu with ⟨rfl, e⟩ | ⟨_, hu'⟩
      · cases e; exact ⟨l, m, k, hk⟩
      · exact h.waits u g hu' hg
    · intro u g hu
      rcases flights_upd (s' := { s.put t (some { f with waiting := true }) with
        queue := upd s.queue l (s.queue l ++ [t]) }) rfl hu with ⟨rfl, e⟩ | ⟨_, hu'⟩
      · cases e; exact h.ord u f ht
      · exact h.ord u g hu'
  | grant t f l m k q ht hk hw hq hc =>
    have hnd := h.nodup l
    rw [hq] at hnd
    refine ⟨fun l' u => ?_, fun l' => ?_, ?_, ?_⟩
    · by_cases e : u = t
      · subst e
        simp only [Cfg.put, upd_self, Option.some.injEq]
        constructor
        · intro hu
          by_cases el : l' = l
          · subst el
            rw [upd_self] at hu
            exact absurd hu (List.nodup_cons.1 hnd).1
          · rw [upd_ne _ _ el, h.queue] at hu
            obtain ⟨f1, m1, k1, h1, _, h3⟩ := hu
            rw [ht] at h1; cases h1; rw [hk] at h3; cases h3; exact absurd rfl el
        · rintro ⟨f1, m1, k1, rfl, h2, _⟩
          simp at h2
      · simp only [Cfg.put, upd_ne _ _ e]
        by_cases el : l' = l
        · subst el
          rw [upd_self, ← h.queue, hq]
          simp [e]
        · rw [upd_ne _ _ el]; exact h.queue l' u
    · by_cases el : l' = l
      · subst el
        simp only [upd_self]; exact (List.nodup_cons.1 hnd).2
      · simp only [upd_ne _ _ el]; exact h.nodup l'
    · intro u g hu hg
      rcases flights_upd (s' := { s.put t (some { f with code := k, waiting := false, held := upd f.held l (some m) })
        with queue := upd s.queue l q }) rfl hu with ⟨rfl, e⟩ | ⟨_, hu'⟩
      · cases e; simp at hg
      · exact h.waits u g hu' hg
    · intro u g hu hev
      rcases flights_upd (s' := { s.put t (some { f with code := k, waiting := false, held := upd f.held l (some m) })
        with queue := upd s.queue l q }) rfl hu with ⟨rfl, e⟩ | ⟨_, hu'⟩
      · cases e
        have := h.ord u f ht hev
        rw [hk] at this
        exact this.2
      · exact h.ord u g hu' hev
  | unlock t f l k ht hk =>
    have hw := h.not_waiting ht (by rw [hk]; simp)
    refine h.run rfl rfl hw (fun f' e => by cases e; exact hw f ht) (fun f' e hev => ?_)
    cases e
    have := h.ord t f ht hev
    rw [hk] at this; exact this
  | getUsed t f k ht hk =>
    have hw := h.not_waiting ht (by rw [hk]; simp)
    refine h.run rfl rfl hw (fun f' e => by cases e; exact hw f ht) (fun f' e hev => ?_)
    cases e
    have := h.ord t f ht hev
    rw [hk] at this; exact this _
  | getAvail t f k ht hk =>
    have hw := h.not_waiting ht (by rw [hk]; simp)
    refine h.run rfl rfl hw (fun f' e => by cases e; exact hw f ht) (fun f' e hev => ?_)
    cases e
    have := h.ord t f ht hev
    rw [hk] at this; exact this _
  | putUsed t f v k ht hk =>
    have hw := h.not_waiting ht (by rw [hk]; simp)
    refine h.run rfl rfl hw (fun f' e => by cases e; exact hw f ht) (fun f' e hev => ?_)
    cases e
    have := h.ord t f ht hev
    rw [hk] at this; exact this
  | putAvail t f v k ht hk =>
    have hw := h.not_waiting ht (by rw [hk]; simp)
    refine h.run rfl rfl hw (fun f' e => by cases e; exact hw f ht) (fun f' e hev => ?_)
    cases e
    have := h.ord t f ht hev
    rw [hk] at this; exact this
  | commit t f g k ht hk =>
    have hw := h.not_waiting ht (by rw [hk]; simp)
    refine h.run rfl rfl hw (fun f' e => by cases e; exact hw f ht) (fun f' e hev => ?_)
    cases e
    have := h.ord t f ht hev
    rw [hk] at this; exact this _
  | send t f k ht hk =>
    have hw := h.not_waiting ht (by rw [hk]; simp)
    refine h.run rfl rfl hw (fun f' e => by cases e; exact hw f ht) (fun f' e hev => ?_)
    cases e
    have := h.ord t f ht hev
    rw [hk] at this; exact this
  | finish t f x ht hk =>
    have hw := h.not_waiting ht (by rw [hk]; simp)
    exact h.run rfl rfl hw (fun f' e => by simp at e) (fun f' e => by simp at e)
  | abandon t f ht hc =>
    refine ⟨fun l u => ?_, fun l => (h.nodup l).filter _, ?_, ?_⟩
    · simp only [List.mem_filter, decide_eq_true_eq, h.queue, Cfg.put]
      by_cases e : u = t
      · subst e; simp [upd_self]
      · simp [upd_ne _ _ e, e]
    · intro u g hu hg
      rcases flights_upd (s' := { s.put t none with queue := fun l => (s.queue l).filter (fun u => u ≠ t)
                                                    conns := dropped s.conns f.owner }) rfl hu with ⟨rfl, e⟩ | ⟨_, hu'⟩
      · simp at e
      · exact h.waits u g hu' hg
    · intro u g hu
      rcases flights_upd (s' := { s.put t none with queue := fun l => (s.queue l).filter (fun u => u ≠ t)
                                                    conns := dropped s.conns f.owner }) rfl hu with ⟨rfl, e⟩ | ⟨_, hu'⟩
      · simp at e
      · exact h.ord u g hu'

theorem QInv.reach {σ} {env : Env σ} {p : Profile} {devices : List Device} {w : World σ}
    {ls : List (Label σ)} {s : Cfg σ} (h : Cfg.Reach env p (Cfg.init devices w) ls s) : QInv s := by
  induction h with
  | refl => exact QInv.init devices w
  | tail h st ih => exact ih.step st

/-- A program that is not waiting for a lock can go on. -/
theorem advance_of_not_waiting {σ} (env : Env σ) (p : Profile) {s : Cfg σ} {t : Nat} {f : Flight σ}
    (ht : s.flights t = some f) (hw : f.waiting = false) :
    ∃ lb s', Cfg.Step env p s lb s' ∧ Advances lb := by
  cases hk : f.code with
  | done x => exact ⟨_, _, .finish s t f x ht hk, trivial⟩
  | lock l m k => exact ⟨_, _, .request s t f l m k ht hk hw, trivial⟩
  | unlock l k => exact ⟨_, _, .unlock s t f l k ht hk, trivial⟩
  | getUsed k => exact ⟨_, _, .getUsed s t f k ht hk, trivial⟩
  | getAvail k => exact ⟨_, _, .getAvail s t f k ht hk, trivial⟩
  | putUsed v k => exact ⟨_, _, .putUsed s t f v k ht hk, trivial⟩
  | putAvail v k => exact ⟨_, _, .putAvail s t f v k ht hk, trivial⟩
  | commit g k => exact ⟨_, _, .commit s t f g k ht hk, trivial⟩
  | send k => exact ⟨_, _, .send s t f k ht hk, trivial⟩

/-- Steps of other programs leave a program alone. -/
theorem flights_other {σ} {env : Env σ} {p : Profile} {s s' : Cfg σ} {lb : Label σ}
    (st : Cfg.Step env p s lb s') {t : Nat} (h : prog lb ≠ some t) : s'.flights t = s.flights t := by
  cases st <;> simp only [prog, Option.some.injEq, ne_eq] at h <;> first
    | rfl
    | exact upd_ne _ _ (fun e => h e.symm)

/-- How the code and the guards of a program change in one step. -/
inductive CodeStep {σ} : Task σ → (Lk → Option Mode) → Task σ → (Lk → Option Mode) → Prop
  | same (c h) : CodeStep c h c h
  | lock (l m k h) : CodeStep (.lock l m k) h k (upd h l (some m))
  | unlock (l k h) : CodeStep (.unlock l k) h k (upd h l none)
  | getUsed (k v h) : CodeStep (.getUsed k) h (k v) h
  | getAvail (k v h) : CodeStep (.getAvail k) h (k v) h
  | putUsed (v k h) : CodeStep (.putUsed v k) h k h
  | putAvail (v k h) : CodeStep (.putAvail v k) h k h
  | commit (g k w h) : CodeStep (.commit g k) h (k w) h
  | send (k h) : CodeStep (.send k) h k h

/-- Every program in flight was in flight before, or has just started. -/
theorem flight_step {σ} {env : Env σ} {p : Profile} {s s' : Cfg σ} {lb : Label σ}
    (st : Cfg.Step env p s lb s') {u : Nat} {g : Flight σ} (hu : s'.flights u = some g) :
    (∃ f, s.flights u = some f ∧ g.ev = f.ev ∧ g.owner = f.owner ∧
      CodeStep f.code f.held g.code g.held) ∨
    (s.flights u = none ∧ s'.conns = s.conns ∧ ((∃ c w x, g = Flight.start (.iterate c w) (some c) (iterTask env p x w) ∧
        s.conns c = some x ∧ x.status = .running ∧ s.idle c) ∨
      (∃ d, g = Flight.start (.addDevice d) none (addTask d)) ∨
      (∃ i, g = Flight.start (.removeDevice i) none (removeTask i)))) := by
  by_cases hne : prog lb = some u
  case neg =>
    rw [flights_other st hne] at hu
    exact Or.inl ⟨g, hu, rfl, rfl, .same _ _⟩
  cases st <;> simp only [prog, Option.some.injEq, reduceCtorEq] at hne <;> subst hne
  case iterate c w x ht hc hr hi =>
    rw [put_same] at hu; cases hu
    exact Or.inr ⟨ht, rfl, Or.inl ⟨c, w, x, rfl, hc, hr, hi⟩⟩
  case add d ht =>
    rw [put_same] at hu; cases hu
    exact Or.inr ⟨ht, rfl, Or.inr (Or.inl ⟨d, rfl⟩)⟩
  case remove i ht =>
    rw [put_same] at hu; cases hu
    exact Or.inr ⟨ht, rfl, Or.inr (Or.inr ⟨i, rfl⟩)⟩
  case finish => simp [Cfg.put, upd_self] at hu
  case abandon => simp [Cfg.put, upd_self] at hu
  case request f l m k ht hk hw =>
    simp only [Cfg.put, upd_self, Option.some.injEq] at hu
    subst hu
    refine Or.inl ⟨f, ht, rfl, rfl, ?_⟩
    exact .same _ _
  case grant f l m k q ht hk hw hq hc =>
    simp only [Cfg.put, upd_self, Option.some.injEq] at hu
    subst hu
    refine Or.inl ⟨f, ht, rfl, rfl, ?_⟩
    rw [hk]; constructor
  case unlock f l k ht hk =>
    simp only [Cfg.put, upd_self, Option.some.injEq] at hu
    subst hu
    refine Or.inl ⟨f, ht, rfl, rfl, ?_⟩
    rw [hk]; constructor
  case getUsed f k ht hk =>
    simp only [Cfg.put, upd_self, Option.some.injEq] at hu
    subst hu
    refine Or.inl ⟨f, ht, rfl, rfl, ?_⟩
    rw [hk]; constructor
  case getAvail f k ht hk =>
    simp only [Cfg.put, upd_self, Option.some.injEq] at hu
    subst hu
    refine Or.inl ⟨f, ht, rfl, rfl, ?_⟩
    rw [hk]; constructor
  case putUsed f v k ht hk =>
    simp only [Cfg.put, upd_self, Option.some.injEq] at hu
    subst hu
    refine Or.inl ⟨f, ht, rfl, rfl, ?_⟩
    rw [hk]; constructor
  case putAvail f v k ht hk =>
    simp only [Cfg.put, upd_self, Option.some.injEq] at hu
    subst hu
    refine Or.inl ⟨f, ht, rfl, rfl, ?_⟩
    rw [hk]; constructor
  case commit f g k ht hk =>
    simp only [Cfg.put, upd_self, Option.some.injEq] at hu
    subst hu
    refine Or.inl ⟨f, ht, rfl, rfl, ?_⟩
    rw [hk]; constructor
  case send f k ht hk =>
    simp only [Cfg.put, upd_self, Option.some.injEq] at hu
    subst hu
    refine Or.inl ⟨f, ht, rfl, rfl, ?_⟩
    rw [hk]; constructor

/-- The connection of a program in flight is the one it started with. -/
theorem owner_conn {σ} {env : Env σ} {p : Profile} {S : Sys σ} {s s' : Cfg σ} {lb : Label σ}
    (hI : CInv env p S s) (st : Cfg.Step env p s lb s') {u : Nat} {g f : Flight σ}
    (hu : s'.flights u = some g) (hf : s.flights u = some f) {c : Nat} (hc : f.owner = some c) :
    s'.conns c = s.conns c := by
  obtain ⟨x, hx, hr⟩ := (hI.fl u f hf).owner c hc
  cases st <;> try rfl
  case connect c' input h =>
    have : c ≠ c' := by rintro rfl; rw [hx] at h; simp at h
    exact setConn_ne this
  case cancel c' x' h hr' hi =>
    have : c ≠ c' := by rintro rfl; exact hi u f hf hc
    exact setConn_ne this
  case finish t f' x' ht hk =>
    have hne : u ≠ t := by rintro rfl; simp [Cfg.put, upd_self] at hu
    dsimp only [finished, Cfg.put]
    cases ho : f'.owner with
    | none => rfl
    | some c' =>
      have : c ≠ c' := by rintro rfl; exact hne (hI.owners u t f f' c hf ht hc ho)
      cases x' with
      | call r => rfl
      | conn y => exact setConn_ne this
  case abandon t f' ht hk =>
    have hne : u ≠ t := by rintro rfl; simp [Cfg.put, upd_self] at hu
    dsimp only [dropped, Cfg.put]
    cases ho : f'.owner with
    | none => rfl
    | some c' =>
      have : c ≠ c' := by rintro rfl; exact hne (hI.owners u t f f' c hf ht hc ho)
      dsimp only
      cases s.conns c' with
      | none => rfl
      | some y => exact setConn_ne this

/-- While sending, only shared guards are held. -/
def Task.Shares {σ} : Task σ → (held : Lk → Option Mode) → Prop
  | .done _, _ => True
  | .lock l m k, held => k.Shares (upd held l (some m))
  | .unlock l k, held => k.Shares (upd held l none)
  | .getUsed k, held => ∀ v, (k v).Shares held
  | .getAvail k, held => ∀ v, (k v).Shares held
  | .putUsed _ k, held => k.Shares held
  | .putAvail _ k, held => k.Shares held
  | .commit _ k, held => ∀ w, (k w).Shares held
  | .send k, held => (∀ l, held l ≠ some .w) ∧ k.Shares held

theorem Task.Shares.step {σ} {c c' : Task σ} {h h' : Lk → Option Mode} (st : CodeStep c h c' h')
    (hs : c.Shares h) : c'.Shares h' := by
  cases st with
  | same => exact hs
  | lock => exact hs
  | unlock => exact hs
  | getUsed => exact hs _
  | getAvail => exact hs _
  | putUsed => exact hs
  | putAvail => exact hs
  | commit => exact hs _
  | send => exact hs.2

theorem iterTask_Shares {σ} (env : Env σ) (p : Profile) (x : Conn) (w : WriteRes)
    (hn : ∀ st b rest, readCommand p x.input ≠ .ok (.reqImport st b, rest)) :
    (iterTask env p x w).Shares (fun _ => none) := by
  have r1 : ∀ l, upd (fun _ => (none : Option Mode)) Lk.used (some .r) l ≠ some .w := by
    intro l; cases l <;> simp [upd]
  have r2 : ∀ l, upd (upd (fun _ => (none : Option Mode)) Lk.used (some .r)) Lk.avail (some .r) l ≠ some .w := by
    intro l; cases l <;> simp [upd]
  unfold iterTask
  split
  · exact fun _ _ => ⟨r2, trivial⟩
  · rename_i h; exact absurd h (hn _ _ _)
  · intro u
    dsimp only
    split
    · exact fun _ => trivial
    · exact fun _ => ⟨r1, trivial⟩
  · exact fun _ => ⟨r1, trivial⟩
  · simp only [releaseTask]
    split
    · exact fun _ => trivial
    · intro _ u
      dsimp only
      split
      · exact fun _ => trivial
      · trivial
  · exact fun _ => trivial

theorem shares_reach {σ} {env : Env σ} {p : Profile} {devices : List Device} {w : World σ}
    {ls : List (Label σ)} {s : Cfg σ} (h : Cfg.Reach env p (Cfg.init devices w) ls s) :
    ∀ t f c x, s.flights t = some f → f.owner = some c → s.conns c = some x →
      (∀ st b rest, readCommand p x.input ≠ .ok (.reqImport st b, rest)) → f.code.Shares f.held := by
  induction h with
  | refl => intro t f c x h; simp [Cfg.init] at h
  | @tail ls s lb s' h st ih =>
    intro t g c x ht ho hx hn
    rcases flight_step st ht with ⟨f, hf, _, hown, hcs⟩ | ⟨_, hcn, ⟨c', w', x', rfl, hx', _⟩ | ⟨d, rfl⟩ | ⟨i, rfl⟩⟩
    · have hof : f.owner = some c := hown ▸ ho
      rw [owner_conn (CInv.reach h) st ht hf hof] at hx
      exact (ih t f c x hf hof hx hn).step hcs
    · cases ho
      rw [hcn, hx'] at hx; cases hx
      exact iterTask_Shares env p x w' hn
    · simp [Flight.start] at ho
    · simp [Flight.start] at ho

end Usbip
