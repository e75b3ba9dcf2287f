import Verif.Lemmas.Work
import Verif.Props.Locks
import Verif.Model.Examples
/-!
# Concurrency: waiting, work and completion (C61, C62, C63)
-/

namespace Usbip
open Spec Samples

/-! ## C61 -/

/-- C61: while a program waits for a lock (it makes no step), the programs that get the lock are
programs that had already asked for it when it asked, each at most once. -/
theorem C61_fifo {σ} (env : Env σ) (p : Profile) (devices : List Device) (w : World σ)
    (ls0 : List (Label σ)) (s0 s : Cfg σ) (h0 : Cfg.Reach env p (Cfg.init devices w) ls0 s0)
    (t : Nat) (l : Lk) (hask : ¬ Waits s0 t l) (lb : Label σ) (hst : Cfg.Step env p s0 lb s)
    (hw : Waits s t l) (ls : List (Label σ)) (us : List Nat) (s' : Cfg σ)
    (h : Gets env p l s ls us s') (ht : ∀ lb ∈ ls, prog lb ≠ some t) :
    us.Nodup ∧ ∀ u ∈ us, Waits s0 u l := by
  have hQ0 := QInv.reach h0
  have h1 := Cfg.Reach.tail h0 hst
  have hQ := QInv.reach h1
  obtain ⟨f, m, k, hf, hwt, hk⟩ := hw
  -- the step is the request
  have hq : s.queue l = s0.queue l ++ [t] := by
    by_cases hp : prog lb = some t
    · cases hst <;> simp only [prog, Option.some.injEq, reduceCtorEq] at hp <;> subst hp
      case iterate => simp only [Cfg.put, upd_self, Option.some.injEq] at hf; subst hf; simp [Flight.start] at hwt
      case add => simp only [Cfg.put, upd_self, Option.some.injEq] at hf; subst hf; simp [Flight.start] at hwt
      case remove => simp only [Cfg.put, upd_self, Option.some.injEq] at hf; subst hf; simp [Flight.start] at hwt
      case request ht' hk' hw' =>
        simp only [Cfg.put, upd_self, Option.some.injEq] at hf
        subst hf
        dsimp only at hk
        rw [hk'] at hk; cases hk
        exact upd_self _ _ _
      case grant => simp only [Cfg.put, upd_self, Option.some.injEq] at hf; subst hf; simp at hwt
      case finish => simp [Cfg.put, upd_self] at hf
      case abandon => simp [Cfg.put, upd_self] at hf
      all_goals
        rename_i ht' hk'
        simp only [Cfg.put, upd_self, Option.some.injEq] at hf
        subst hf
        have := hQ0.not_waiting ht' (by rw [hk']; simp) _ ht'
        dsimp only at hwt
        rw [this] at hwt; simp at hwt
    · rw [flights_other hst hp] at hf
      exact absurd ⟨f, m, k, hf, hwt, hk⟩ hask
  obtain ⟨pre', post', _, hsub⟩ := h.queue h1 hq ht
  have hs : us.Sublist (s0.queue l) := (List.sublist_append_left us pre').trans hsub
  exact ⟨hs.nodup (hQ0.nodup l), fun u hu => (hQ0.queue l u).1 (hs.subset hu)⟩

/-! ## C62 -/

/-- C62: in a fair execution in which no `remove_device` call waits for the imported devices (it does
so only if the device is not available, see `C62_needed`), every operation that was started ends,
unless its task is dropped, no matter how many other operations keep being started. -/
theorem C62_completes {σ} (env : Env σ) (p : Profile) (devices : List Device) (w : World σ)
    (e : Exec env p (Cfg.init devices w)) (hfair : e.Fair)
    (hno : ∀ n t f i m k, (e.state n).flights t = some f → f.ev = .removeDevice i → f.code ≠ .lock .used m k)
    (t n : Nat) (ev : Event σ) (hs : e.label n = .start t ev) :
    ∃ m, n < m ∧ (e.label m = .ended t ∨ ∃ o, e.label m = .dropped t o) := by
  have hfl : ∃ f, (e.state (n + 1)).flights t = some f := by
    have st := e.step n
    rw [hs] at st
    generalize e.state (n + 1) = s' at st
    generalize e.state n = s at st
    cases st <;> exact ⟨_, upd_self _ _ _⟩
  obtain ⟨f, hf⟩ := hfl
  obtain ⟨m, hm, h⟩ := completes e (H := all_move e hfair hno) 26 (n + 1) t f hf
    (within_reach (e.reach _) t f hf)
  exact ⟨m, by omega, h⟩

/-- In particular if `remove_device` is not called. -/
theorem C62_no_removals {σ} (env : Env σ) (p : Profile) (devices : List Device) (w : World σ)
    (e : Exec env p (Cfg.init devices w)) (hfair : e.Fair)
    (hno : ∀ n t i, e.label n ≠ .start t (.removeDevice i))
    (t n : Nat) (ev : Event σ) (hs : e.label n = .start t ev) :
    ∃ m, n < m ∧ (e.label m = .ended t ∨ ∃ o, e.label m = .dropped t o) := by
  refine C62_completes env p devices w e hfair (fun n => ?_) t n ev hs
  suffices H : ∀ t f i, (e.state n).flights t = some f → f.ev ≠ .removeDevice i from
    fun t f i m k hf hev => absurd hev (H t f i hf)
  induction n with
  | zero => intro t f i hf; rw [e.init] at hf; simp [Cfg.init] at hf
  | succ n ih =>
    intro t f i hf hev
    by_cases hp : prog (e.label n) = some t
    · cases hn : (e.state n).flights t with
      | some f' =>
        rcases flight_step (e.step n) hf with ⟨f', hf', he, _⟩ | ⟨hn', _⟩
        · exact ih t f' i hf' (he ▸ hev)
        · rw [hn] at hn'; simp at hn'
      | none =>
        obtain ⟨g, hl, hg⟩ := first_step (e.step n) hn hp
        rw [hf] at hg; cases hg
        exact hno n t i (hev ▸ hl)
    · rw [flights_other (e.step n) hp] at hf
      exact ih t f i hf hev

/-- An execution with one more step in front. -/
def Spec.Exec.cons {σ} {env : Env σ} {p : Profile} {s s' : Cfg σ} {lb : Label σ}
    (st : Cfg.Step env p s lb s') (e : Exec env p s') : Exec env p s where
  state n := match n with | 0 => s | n + 1 => e.state n
  label n := match n with | 0 => lb | n + 1 => e.label n
  init := rfl
  step n := match n with
    | 0 => by dsimp only; rw [e.init]; exact st
    | n + 1 => e.step n

/-- Nothing happens any more. -/
def Spec.Exec.rest {σ} (env : Env σ) (p : Profile) (s : Cfg σ) : Exec env p s where
  state _ := s
  label _ := .outside (.user id)
  init := rfl
  step _ := .user s id none

theorem Spec.Exec.after {σ} {env : Env σ} {p : Profile} {s0 s : Cfg σ} {ls : List (Label σ)}
    (h : Cfg.Reach env p s0 ls s) : ∀ e : Exec env p s, ∃ e' : Exec env p s0,
      (∀ k, e'.state (ls.length + k) = e.state k) ∧ (∀ k, e'.label (ls.length + k) = e.label k) ∧
      ∀ k, (hk : k < ls.length) → e'.label k = ls[k] := by
  induction h with
  | refl => exact fun e => ⟨e, fun k => by simp, fun k => by simp, fun k hk => by simp at hk⟩
  | @tail ls s lb s' h st ih =>
    intro e
    obtain ⟨e', h1, h2, h3⟩ := ih (e.cons st)
    refine ⟨e', fun k => ?_, fun k => ?_, fun k hk => ?_⟩
    · rw [List.length_append, List.length_singleton, Nat.add_assoc, Nat.add_comm 1 k, h1]; rfl
    · rw [List.length_append, List.length_singleton, Nat.add_assoc, Nat.add_comm 1 k, h2]; rfl
    · rw [List.length_append, List.length_singleton] at hk
      by_cases hlt : k < ls.length
      · rw [h3 k hlt, List.getElem_append_left hlt]
      · have : k = ls.length := by omega
        subst this
        rw [show e'.label ls.length = e'.label (ls.length + 0) from rfl, h2]
        simp [Spec.Exec.cons]

/-- The condition is needed, for all handlers and builds: there is a fair execution of a server with
one device in which an import (program 0) and the removal of an unknown bus id (program 1) are
started and neither ever ends or is dropped. -/
theorem C62_needed {σ} (env : Env σ) (p : Profile) (w : World σ) :
    ∃ e : Exec env p (Cfg.init [devA] w), e.Fair ∧ ∃ n f g,
      (e.state n).flights 0 = some f ∧ f.ev = .iterate 0 .full ∧
      (e.state n).flights 1 = some g ∧ g.ev = .removeDevice devB.busId ∧
      ∀ m, n ≤ m → (e.state m).flights 0 = some f ∧ (e.state m).flights 1 = some g := by
  obtain ⟨ls, s, f, g, hr, h0, he0, h1, he1, hno, hall⟩ := C34_fails env p w
  obtain ⟨e, hs, hl, _⟩ := Spec.Exec.after hr (Spec.Exec.rest env p s)
  have hrest : ∀ m, ls.length ≤ m → e.state m = s := fun m hm => by
    obtain ⟨k, rfl⟩ := Nat.exists_eq_add_of_le hm
    exact hs k
  refine ⟨e, fun t n => ⟨max n ls.length, by omega, Or.inr ?_⟩, ls.length, f, g, ?_, he0, ?_, he1, ?_⟩
  · rw [hrest _ (by omega)]
    rintro ⟨lb, s', st, ha, hp⟩
    have hd : ∀ t o, Label.dropped t o ∈ ([] ++ [lb]) → t ≠ 0 ∧ t ≠ 1 := by
      intro t o hm
      simp only [List.nil_append, List.mem_singleton] at hm
      subst hm
      exact absurd ha id
    obtain ⟨_, _, _, _, _, hlast⟩ := hall _ _ (.tail .refl st) hd
    have hlb := hlast lb (by simp)
    by_cases e0 : t = 0
    · subst e0; exact hlb.1 hp
    by_cases e1 : t = 1
    · subst e1; exact hlb.2 hp
    obtain ⟨g', hl', _⟩ := first_step st (hno t e0 e1) hp
    rw [hl'] at ha
    exact ha
  · rw [hrest _ (by omega)]; exact h0
  · rw [hrest _ (by omega)]; exact h1
  · intro m hm
    rw [hrest m hm]
    exact ⟨h0, h1⟩

/-! ## C63 -/

/-- What the steps of program `t` may be: for every start, that step and 7 more for `add_device`, 10 more for
`remove_device`, 16 more for a request. -/
def allowance {σ} (t : Nat) : Label σ → Nat
  | .start u (.addDevice _) => if u = t then 8 else 0
  | .start u (.removeDevice _) => if u = t then 11 else 0
  | .start u _ => if u = t then 17 else 0
  | _ => 0

/-- C63: however operations are interleaved, adding a device takes at most 7 steps after its start, removing one at
most 10, a request at most 16 (asking for a lock and getting it are two). -/
theorem C63_each {σ} (env : Env σ) (p : Profile) (devices : List Device) (w : World σ)
    (ls : List (Label σ)) (s : Cfg σ) (h : Cfg.Reach env p (Cfg.init devices w) ls s) (t : Nat) :
    stepsOf t ls ≤ (ls.map (allowance t)).sum := by
  suffices H : stepsOf t ls ≤ (ls.map (allowance t)).sum ∧
      ∀ f, s.flights t = some f → ∃ b, f.Left b ∧ stepsOf t ls + b ≤ (ls.map (allowance t)).sum from H.1
  induction h with
  | refl => exact ⟨by simp [stepsOf], fun f hf => by simp [Cfg.init] at hf⟩
  | @tail ls s lb s' h st ih =>
    obtain ⟨i1, i2⟩ := ih
    have hsteps : stepsOf t (ls ++ [lb]) = stepsOf t ls + (if prog lb = some t then 1 else 0) := by
      simp [stepsOf, List.countP_append, List.countP_singleton]
    have hsum : ((ls ++ [lb]).map (allowance t)).sum = (ls.map (allowance t)).sum + allowance t lb := by simp
    rw [hsteps, hsum]
    by_cases hp : prog lb = some t
    · rw [if_pos hp]
      cases hf : s.flights t with
      | some f =>
        obtain ⟨b, hb, hle⟩ := i2 f hf
        obtain ⟨hpos, hw⟩ := own_step_left (QInv.reach h) st hf hp hb
        exact ⟨by omega, fun g hg => ⟨b - 1, hw g hg, by omega⟩⟩
      | none =>
        obtain ⟨g, hl, hg⟩ := first_step st hf hp
        have hal : ∀ ev, allowance t (.start t ev : Label σ) = allowed ev + 1 := fun ev => by
          cases ev <;> simp [allowance, allowed]
        have hge : 1 ≤ allowance t lb := by rw [hl, hal]; omega
        refine ⟨by omega, fun g hg => ?_⟩
        obtain ⟨ev, e, hleft⟩ := start_left st hf hp hg
        exact ⟨_, hleft, by rw [e, hal]; omega⟩
    · rw [if_neg hp]
      refine ⟨by omega, fun g hg => ?_⟩
      rw [flights_other st hp] at hg
      obtain ⟨b, hb, hle⟩ := i2 g hg
      exact ⟨b, hb, by omega⟩

/-- C63: however operations are interleaved, each takes at most 16 steps after its start. -/
theorem C63_bounded {σ} (env : Env σ) (p : Profile) (devices : List Device) (w : World σ)
    (ls : List (Label σ)) (s : Cfg σ) (h : Cfg.Reach env p (Cfg.init devices w) ls s) (t : Nat) :
    stepsOf t ls ≤ 17 * startsOf t ls := by
  refine Nat.le_trans (C63_each env p devices w ls s h t) ?_
  clear h
  induction ls with
  | nil => simp
  | cons lb ls ih =>
    have hc : startsOf t (lb :: ls) = startsOf t ls + startsOf t [lb] := by
      simp [startsOf, List.countP_cons]
    have h1 : allowance t lb ≤ 17 * startsOf t [lb] := by
      cases lb with
      | start u ev =>
        by_cases e : u = t
        · cases ev <;> simp [allowance, startsOf, e]
        · cases ev <;> simp [allowance, startsOf, e]
      | _ => simp [allowance]
    rw [List.map_cons, List.sum_cons, hc]
    omega

/-- No smaller number will do, for all handlers and builds: a client imports a device and nobody else
is in the way. -/
theorem C63_attained {σ} (env : Env σ) (p : Profile) (w : World σ) :
    ∃ ls s, Cfg.Reach env p (Cfg.init [devA] w) ls s ∧ startsOf 0 ls = 1 ∧ stepsOf 0 ls = 17 := by
  have r1 := Cfg.Reach.tail .refl
    (.connect (env := env) (p := p) (Cfg.init [devA] w) 0 (importStream busA) rfl)
  have r2 := Cfg.Reach.tail r1 (.iterate _ 0 0 .full (Conn.new (importStream busA)) rfl
    (by simp [setConn]) rfl (fun t f h => by simp [Cfg.init] at h))
  have hcode : iterTask env p (Conn.new (importStream busA)) .full
      = importTask p (Conn.new (importStream busA)) ⟨[], .unexpectedEof⟩ (.reqImport 0 busA) busA .full := by
    unfold iterTask
    rw [show (Conn.new (importStream busA)).input = importStream busA from rfl, importStream_read p busA rfl]
  rw [hcode] at r2
  have r3 := Cfg.Reach.tail r2 (.request _ 0 _ .used .r _ rfl rfl rfl)
  have r4 := Cfg.Reach.tail r3 (.grant _ 0 _ .used .r _ [] rfl rfl rfl rfl (by
    intro u g h hu hg
    by_cases e0 : u = 0
    · subst e0; cases hu; simp [Flight.start] at hg
    · simp [Cfg.put, upd, e0, Cfg.init] at hu))
  have r5 := Cfg.Reach.tail r4 (.unlock _ 0 _ .used _ rfl rfl)
  have r6 := Cfg.Reach.tail r5 (.request _ 0 _ .used .w _ rfl rfl rfl)
  have r7 := Cfg.Reach.tail r6 (.grant _ 0 _ .used .w _ [] rfl rfl rfl rfl (by
    intro u g h hu hg
    by_cases e0 : u = 0
    · subst e0; cases hu; simp [Flight.start, upd] at hg
    · simp [Cfg.put, upd, e0, Cfg.init] at hu))
  have r8 := Cfg.Reach.tail r7 (.request _ 0 _ .avail .w _ rfl rfl rfl)
  have r9 := Cfg.Reach.tail r8 (.grant _ 0 _ .avail .w _ [] rfl rfl rfl rfl (by
    intro u g h hu hg
    by_cases e0 : u = 0
    · subst e0; cases hu; simp [Flight.start, upd] at hg
    · simp [Cfg.put, upd, e0, Cfg.init] at hu))
  have r10 := Cfg.Reach.tail r9 (.commit _ 0 _ _ _ rfl rfl)
  have r11 := Cfg.Reach.tail r10 (.getAvail _ 0 _ _ rfl rfl)
  have r12 := Cfg.Reach.tail r11 (.putAvail _ 0 _ _ _ rfl rfl)
  have r13 := Cfg.Reach.tail r12 (.getUsed _ 0 _ _ rfl rfl)
  have r14 := Cfg.Reach.tail r13 (.putUsed _ 0 _ _ _ rfl rfl)
  have r15 := Cfg.Reach.tail r14 (.send _ 0 _ _ rfl rfl)
  have r16 := Cfg.Reach.tail r15 (.unlock _ 0 _ .avail _ rfl rfl)
  have r17 := Cfg.Reach.tail r16 (.unlock _ 0 _ .used _ rfl rfl)
  have r18 := Cfg.Reach.tail r17 (.finish _ 0 _ _ rfl rfl)
  exact ⟨_, _, r18, by simp [startsOf, List.countP_append, List.countP_singleton],
    by simp [stepsOf, prog, List.countP_append, List.countP_singleton]⟩

/-- Nor for the management calls: an addition, and the removal of a device that is not there. -/
theorem C63_attained_calls {σ} (env : Env σ) (p : Profile) (w : World σ) :
    (∃ ls s, Cfg.Reach env p (Cfg.init [] w) ls s ∧ ls.head? = some (.start 0 (.addDevice devA)) ∧
      startsOf 0 ls = 1 ∧ stepsOf 0 ls = 8) ∧
    ∃ ls s, Cfg.Reach env p (Cfg.init [] w) ls s ∧ ls.head? = some (.start 0 (.removeDevice busA)) ∧
      startsOf 0 ls = 1 ∧ stepsOf 0 ls = 11 := by
  constructor
  · have r1 := Cfg.Reach.tail .refl (.add (env := env) (p := p) (Cfg.init [] w) 0 devA rfl)
    have r2 := Cfg.Reach.tail r1 (.request _ 0 _ .avail .w _ rfl rfl rfl)
    have r3 := Cfg.Reach.tail r2 (.grant _ 0 _ .avail .w _ [] rfl rfl rfl rfl (by
      intro u g h hu hg
      by_cases e0 : u = 0
      · subst e0; cases hu; simp [Flight.start] at hg
      · simp [Cfg.put, upd, e0, Cfg.init] at hu))
    have r4 := Cfg.Reach.tail r3 (.commit _ 0 _ _ _ rfl rfl)
    have r5 := Cfg.Reach.tail r4 (.getAvail _ 0 _ _ rfl rfl)
    have r6 := Cfg.Reach.tail r5 (.putAvail _ 0 _ _ _ rfl rfl)
    have r7 := Cfg.Reach.tail r6 (.unlock _ 0 _ .avail _ rfl rfl)
    have r8 := Cfg.Reach.tail r7 (.finish _ 0 _ _ rfl rfl)
    exact ⟨_, _, r8, by simp, by simp [startsOf, List.countP_append, List.countP_singleton],
      by simp [stepsOf, prog, List.countP_append, List.countP_singleton]⟩
  · have r1 := Cfg.Reach.tail .refl (.remove (env := env) (p := p) (Cfg.init [] w) 0 busA rfl)
    have r2 := Cfg.Reach.tail r1 (.request _ 0 _ .avail .w _ rfl rfl rfl)
    have r3 := Cfg.Reach.tail r2 (.grant _ 0 _ .avail .w _ [] rfl rfl rfl rfl (by
      intro u g h hu hg
      by_cases e0 : u = 0
      · subst e0; cases hu; simp [Flight.start] at hg
      · simp [Cfg.put, upd, e0, Cfg.init] at hu))
    have r4 := Cfg.Reach.tail r3 (.getAvail _ 0 _ _ rfl rfl)
    have r5 := Cfg.Reach.tail r4 (.request _ 0 _ .used .r _ rfl rfl rfl)
    have r6 := Cfg.Reach.tail r5 (.grant _ 0 _ .used .r _ [] rfl rfl rfl rfl (by
      intro u g h hu hg
      by_cases e0 : u = 0
      · subst e0; cases hu; simp [Flight.start, upd] at hg
      · simp [Cfg.put, upd, e0, Cfg.init] at hu))
    have r7 := Cfg.Reach.tail r6 (.commit _ 0 _ _ _ rfl rfl)
    have r8 := Cfg.Reach.tail r7 (.getUsed _ 0 _ _ rfl rfl)
    have r9 := Cfg.Reach.tail r8 (.unlock _ 0 _ .used _ rfl rfl)
    have r10 := Cfg.Reach.tail r9 (.unlock _ 0 _ .avail _ rfl rfl)
    have r11 := Cfg.Reach.tail r10 (.finish _ 0 _ _ rfl rfl)
    exact ⟨_, _, r11, by simp, by simp [startsOf, List.countP_append, List.countP_singleton],
      by simp [stepsOf, prog, List.countP_append, List.countP_singleton]⟩

/-! ## Concrete executions -/

/-- Handlers without state. -/
def freshUnit : World Unit := ⟨(), fun _ => false, fun _ => false⟩

/-- `C61_fifo` meets: both additions ask for the available devices, the first one gets them while the
second one waits. -/
example : ∃ ls0 s0 lb s ls s', Cfg.Reach noHandlers dev (Cfg.init [] freshUnit) ls0 s0 ∧
    ¬ Waits s0 1 .avail ∧ Cfg.Step noHandlers dev s0 lb s ∧ Waits s 1 .avail ∧
    Gets noHandlers dev .avail s ls [0] s' ∧ ∀ lb ∈ ls, prog lb ≠ some 1 := by
  have r1 := Cfg.Reach.tail .refl (.add (env := noHandlers) (p := dev) (Cfg.init [] freshUnit) 0 devA rfl)
  have r2 := Cfg.Reach.tail r1 (.add _ 1 devB rfl)
  have r3 := Cfg.Reach.tail r2 (.request _ 0 _ .avail .w _ rfl rfl rfl)
  refine ⟨_, _, _, _, _, _, r3, ?_, .request _ 1 _ .avail .w _ rfl rfl rfl, ⟨_, _, _, rfl, rfl, rfl⟩,
    .got (u := 0) .refl (.grant _ 0 _ .avail .w _ [1] rfl rfl rfl rfl ?_) rfl rfl rfl ?_, ?_⟩
  · rintro ⟨f, m, k, hf, hw, _⟩
    cases hf
    simp [Flight.start] at hw
  · intro u g h hu hg
    by_cases e0 : u = 0
    · subst e0; cases hu; simp [Flight.start] at hg
    · by_cases e1 : u = 1
      · subst e1; cases hu; simp [Flight.start] at hg
      · simp [Cfg.put, upd, e0, e1, Cfg.init] at hu
  · simp [upd]
  · simp [prog]

/-- `C62_completes` and `C62_no_removals` meet: two additions overlap; the execution is fair. -/
example : ∃ e : Exec noHandlers dev (Cfg.init [] freshUnit), e.Fair ∧
    e.label 0 = .start 0 (.addDevice devA) ∧ e.label 1 = .start 1 (.addDevice devB) ∧
    (∀ n t i, e.label n ≠ .start t (.removeDevice i)) ∧ e.label 16 = .outside (.user id) := by
  have r1 := Cfg.Reach.tail .refl (.add (env := noHandlers) (p := dev) (Cfg.init [] freshUnit) 0 devA rfl)
  have r2 := Cfg.Reach.tail r1 (.add _ 1 devB rfl)
  have r3 := Cfg.Reach.tail r2 (.request _ 1 _ .avail .w _ rfl rfl rfl)
  have r4 := Cfg.Reach.tail r3 (.request _ 0 _ .avail .w _ rfl rfl rfl)
  have r5 := Cfg.Reach.tail r4 (.grant _ 1 _ .avail .w _ [0] rfl rfl rfl rfl (by
    intro u g h hu hg
    by_cases e0 : u = 0
    · subst e0; cases hu; simp [Flight.start] at hg
    · by_cases e1 : u = 1
      · subst e1; cases hu; simp [Flight.start] at hg
      · simp [Cfg.put, upd, e0, e1, Cfg.init] at hu))
  have r6 := Cfg.Reach.tail r5 (.commit _ 1 _ _ _ rfl rfl)
  have r7 := Cfg.Reach.tail r6 (.getAvail _ 1 _ _ rfl rfl)
  have r8 := Cfg.Reach.tail r7 (.putAvail _ 1 _ _ _ rfl rfl)
  have r9 := Cfg.Reach.tail r8 (.unlock _ 1 _ .avail _ rfl rfl)
  have r10 := Cfg.Reach.tail r9 (.finish _ 1 _ _ rfl rfl)
  have r11 := Cfg.Reach.tail r10 (.grant _ 0 _ .avail .w _ [] rfl rfl rfl rfl (by
    intro u g h hu hg
    by_cases e0 : u = 0
    · subst e0; cases hu; simp [Flight.start] at hg
    · by_cases e1 : u = 1
      · subst e1; simp [Cfg.put, upd] at hu
      · simp [Cfg.put, upd, e0, e1, Cfg.init] at hu))
  have r12 := Cfg.Reach.tail r11 (.commit _ 0 _ _ _ rfl rfl)
  have r13 := Cfg.Reach.tail r12 (.getAvail _ 0 _ _ rfl rfl)
  have r14 := Cfg.Reach.tail r13 (.putAvail _ 0 _ _ _ rfl rfl)
  have r15 := Cfg.Reach.tail r14 (.unlock _ 0 _ .avail _ rfl rfl)
  have r16 := Cfg.Reach.tail r15 (.finish _ 0 _ _ rfl rfl)
  obtain ⟨e, hs, hl, hp⟩ := Spec.Exec.after r16 (Spec.Exec.rest noHandlers dev _)
  refine ⟨e, fun t n => ⟨16 + n, by omega, Or.inr ?_⟩, hp 0 (by simp), hp 1 (by simp), fun n t i => ?_, hl 0⟩
  · have : e.state (16 + n) = _ := hs n
    rw [this]
    rintro ⟨lb, s', st, ha, hpr⟩
    obtain ⟨g, hg, _⟩ := first_step st (by
      show upd _ 0 none t = none
      by_cases e0 : t = 0
      · subst e0; rfl
      · by_cases e1 : t = 1
        · subst e1; rfl
        · simp [Cfg.put, upd, e0, e1, Cfg.init, Spec.Exec.rest]) hpr
    rw [hg] at ha; exact ha
  · by_cases h : n < 16
    · rw [hp n (by simpa using h)]
      match n, h with
      | 0, _ => simp
      | 1, _ => simp
      | 2, _ => simp
      | 3, _ => simp
      | 4, _ => simp
      | 5, _ => simp
      | 6, _ => simp
      | 7, _ => simp
      | 8, _ => simp
      | 9, _ => simp
      | 10, _ => simp
      | 11, _ => simp
      | 12, _ => simp
      | 13, _ => simp
      | 14, _ => simp
      | 15, _ => simp
      | n + 16, h => omega
    · obtain ⟨k, rfl⟩ := Nat.exists_eq_add_of_le (Nat.not_lt.1 h)
      have : e.label (16 + k) = .outside (.user id) := hl k
      rw [this]; simp

end Usbip
