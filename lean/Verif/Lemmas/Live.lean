import Verif.Lemmas.Run
import Verif.Lemmas.TcpRealise
import Verif.Spec.Live
/-! Helper lemmas: fair executions on sockets. -/

namespace Usbip
open Spec

theorem hear_Fits {σ} (m : Stream) (k : Task σ) : ∀ n, (hear m k).Fits n ↔ k.Fits n := by
  induction k with
  | done x => intro n; exact Iff.rfl
  | lock l md k ih => intro n; simp only [hear, Task.Fits, ih]
  | unlock l k ih => intro n; simp only [hear, Task.Fits, ih]
  | getUsed k ih => intro n; simp only [hear, Task.Fits, ih]
  | getAvail k ih => intro n; simp only [hear, Task.Fits, ih]
  | putUsed v k ih => intro n; simp only [hear, Task.Fits, ih]
  | putAvail v k ih => intro n; simp only [hear, Task.Fits, ih]
  | commit f k ih => intro n; simp only [hear, Task.Fits, ih]
  | send k ih => intro n; simp only [hear, Task.Fits, ih]

theorem hear_Ord {σ} (m : Stream) (k : Task σ) : ∀ held, (hear m k).Ord held ↔ k.Ord held := by
  induction k with
  | done x => intro held; exact Iff.rfl
  | lock l md k ih => intro held; simp only [hear, Task.Ord, ih]
  | unlock l k ih => intro held; simp only [hear, Task.Ord, ih]
  | getUsed k ih => intro held; simp only [hear, Task.Ord, ih]
  | getAvail k ih => intro held; simp only [hear, Task.Ord, ih]
  | putUsed v k ih => intro held; simp only [hear, Task.Ord, ih]
  | putAvail v k ih => intro held; simp only [hear, Task.Ord, ih]
  | commit f k ih => intro held; simp only [hear, Task.Ord, ih]
  | send k ih => intro held; simp only [hear, Task.Ord, ih]

theorem hearCode_Fits {σ} {m : Nat → Stream} {o : Option Nat} {k : Task σ} {n : Nat} :
    (hearCode m o k).Fits n ↔ k.Fits n := by
  cases o with
  | none => exact Iff.rfl
  | some c => exact hear_Fits _ k n

theorem hearCode_Ord {σ} {m : Nat → Stream} {o : Option Nat} {k : Task σ} {held : Lk → Option Mode} :
    (hearCode m o k).Ord held ↔ k.Ord held := by
  cases o with
  | none => exact Iff.rfl
  | some c => exact hear_Ord _ k held

theorem hearCode_lock_iff {σ} {m : Nat → Stream} {o : Option Nat} {code : Task σ} {l : Lk} {md : Mode} :
    (∃ k, hearCode m o code = .lock l md k) ↔ ∃ k, code = .lock l md k := by
  constructor
  · rintro ⟨k, h⟩; exact hearCode_lock h
  · rintro ⟨k, rfl⟩; cases o <;> exact ⟨_, rfl⟩

theorem QInv.unhear {σ} {m : Nat → Stream} {s : Cfg σ} (h : QInv (hearing m s)) : QInv s := by
  refine ⟨fun l t => ?_, h.nodup, ?_, ?_⟩
  · rw [show s.queue = (hearing m s).queue from rfl, h.queue l t]
    constructor
    · rintro ⟨g, md, k, hg, hw, hk⟩
      obtain ⟨f, hf, rfl⟩ := hearing_flight_inv hg
      obtain ⟨k', hk'⟩ := hearCode_lock hk
      exact ⟨f, md, k', hf, hw, hk'⟩
    · rintro ⟨f, md, k, hf, hw, hk⟩
      obtain ⟨k', hk'⟩ := hearCode_lock_iff (m := m) (o := f.owner).2 ⟨k, hk⟩
      exact ⟨_, md, k', hearing_flight hf, hw, hk'⟩
  · intro t f hf hw
    obtain ⟨l, md, k, hk⟩ := h.waits t _ (hearing_flight hf) hw
    obtain ⟨k', hk'⟩ := hearCode_lock hk
    exact ⟨l, md, k', hk'⟩
  · intro t f hf he
    exact hearCode_Ord.1 (h.ord t _ (hearing_flight hf) he)

section
variable {σ : Type} {env : Env σ} {p : Profile} {devices : List Device} {w : World σ} {ls : List (TcpLabel σ)}
  {s : Tcp σ}

theorem TInv.q (h : TInv env p devices w ls s) : QInv s.cfg := by
  obtain ⟨ls', hr, _⟩ := h.fore _ (someFuture_possible s)
  exact (QInv.reach hr).unhear

theorem TInv.own (h : TInv env p devices w ls s) (t : Nat) (f : Flight σ) (l : Lk) (m : Mode) (k : Task σ)
    (hf : s.cfg.flights t = some f) (hk : f.code = .lock l m k) : f.held l = none := by
  obtain ⟨ls', hr, _⟩ := h.fore _ (someFuture_possible s)
  obtain ⟨d, hwl, _⟩ := ((CInv.reach hr).fl t _ (hearing_flight hf)).prog
  obtain ⟨k', hk'⟩ := hearCode_lock_iff (m := inSocket s (someFuture s)) (o := f.owner).2 ⟨k, hk⟩
  dsimp only at hwl
  rw [hk'] at hwl; exact hwl.2.1

theorem TInv.within (h : TInv env p devices w ls s) (t : Nat) (f : Flight σ)
    (hf : s.cfg.flights t = some f) : f.Within 26 := by
  obtain ⟨ls', hr, _⟩ := h.fore _ (someFuture_possible s)
  obtain ⟨n, h1, h2⟩ := within_reach hr t _ (hearing_flight hf)
  exact ⟨n, hearCode_Fits.1 h1, h2⟩

theorem TInv.finite (h : TInv env p devices w ls s) : ∃ N, ∀ t, N ≤ t → s.cfg.flights t = none := by
  obtain ⟨ls', hr, _⟩ := h.fore _ (someFuture_possible s)
  obtain ⟨N, hN⟩ := finite_reach hr
  refine ⟨N, fun t ht => ?_⟩
  cases hf : s.cfg.flights t with
  | none => rfl
  | some f => have := hN t ht; rw [hearing_flight hf] at this; simp at this

end

/-- Steps on sockets, as far as the programs in flight are concerned. -/
theorem tcp_flightStep {σ} {env : Env σ} {p : Profile} {s s' : Tcp σ} {lb : TcpLabel σ} (st : Tcp.Step env p s lb s') :
    match serverStep lb with
    | none => s'.cfg.flights = s.cfg.flights ∧ s'.cfg.queue = s.cfg.queue
    | some lb => FlightStep env p s.cfg lb s'.cfg := by
  cases st with
  | connect c h => exact ⟨_, _, .connect s.cfg c _ h, rfl, rfl, rfl, rfl⟩
  | arrive c bs h he => exact ⟨rfl, rfl⟩
  | hangup c e h he => exact ⟨rfl, rfl⟩
  | take c x bs rest hc hi hb => exact ⟨rfl, rfl⟩
  | iterate t c w x ht hc hr hi hd => exact ⟨_, _, .iterate s.cfg t c w x ht hc hr hi, rfl, rfl, rfl, rfl⟩
  | iterateEnd t c w x e ht hc hr hi he hb =>
    exact ⟨{ s.cfg with conns := setConn s.cfg.conns c { x with input := ⟨x.input.bytes, e⟩ } }, _,
      .iterate _ t c w { x with input := ⟨x.input.bytes, e⟩ } ht (by simp [setConn]) hr hi, rfl, rfl, rfl, rfl⟩
  | piece t c f k y bs ht ho hk hy hp => exact ⟨rfl, rfl⟩
  | sent t c f k y ht ho hk hy hp => exact ⟨_, _, .send s.cfg t f k ht hk, rfl, rfl, rfl, rfl⟩
  | other lb cfg' st h1 h2 h3 => exact ⟨_, _, st, rfl, rfl, rfl, rfl⟩

section
variable {σ : Type} {env : Env σ} {p : Profile} {devices : List Device} {w : World σ}
  (e : TcpExec env p (Tcp.init devices w))

theorem Spec.TcpExec.reach (n : Nat) :
    Tcp.Reach env p (Tcp.init devices w) ((List.range n).map e.label) (e.state n) := by
  induction n with
  | zero => rw [e.init]; exact .refl
  | succ n ih =>
    rw [List.range_succ, List.map_append]
    exact .tail ih (e.step n)

theorem Spec.TcpExec.inv (n : Nat) : TInv env p devices w ((List.range n).map e.label) (e.state n) :=
  TInv.reach (e.reach n)

/-- The programs in flight in an execution on sockets. -/
def Spec.TcpExec.run : Run (σ := σ) env p where
  state n := (e.state n).cfg
  label n := serverStep (e.label n)
  q n := (e.inv n).q
  own n := (e.inv n).own
  within n := (e.inv n).within
  finite n := (e.inv n).finite
  stays n h := by have := tcp_flightStep (e.step n); rw [h] at this; exact this
  steps n lb h := by have := tcp_flightStep (e.step n); rw [h] at this; exact this

theorem Spec.TcpExec.of_iff {t n : Nat} : e.run.Of t n ↔ ∃ lb, e.label n = .server lb ∧ prog lb = some t := by
  constructor
  · rintro ⟨lb, h, hp⟩
    refine ⟨lb, ?_, hp⟩
    change serverStep (e.label n) = some lb at h
    cases hl : e.label n <;> rw [hl] at h <;> simp [serverStep] at h
    rw [h]
  · rintro ⟨lb, h, hp⟩
    exact ⟨lb, by show serverStep (e.label n) = some lb; rw [h]; rfl, hp⟩

/-- A program that need not wait can get further, unless it is sending. -/
theorem tcp_canMove {s : Tcp σ} {t : Nat} {f : Flight σ} (ht : s.cfg.flights t = some f) (hw : f.waiting = false)
    (hs : ∀ k, f.code ≠ .send k) : ∃ lb s', Tcp.Step env p s (.server lb) s' ∧ Advances lb ∧ prog lb = some t := by
  obtain ⟨lb, s', st, ha, hp⟩ := canMove_of_free (env := env) (p := p) ht hw
  refine ⟨lb, _, .other s lb s' st ?_ ?_ ?_, ha, hp⟩
  · rintro c i rfl; exact ha
  · rintro t c w rfl; exact ha
  · rintro u g k rfl hg hk
    cases hp
    rw [ht] at hg; cases hg
    exact hs k hk

/-- What a client has received changes only when it receives something. -/
theorem got_step {s s' : Tcp σ} {lb : TcpLabel σ} (st : Tcp.Step env p s lb s') (c : Nat) :
    (s'.got c = s.got c ∧ ∀ b bs, lb ≠ .piece c (b :: bs)) ∨
    ∃ t f k y bs, lb = .piece c bs ∧ s.cfg.flights t = some f ∧ f.owner = some c ∧ f.code = .send k ∧
      k.final = some y ∧ s.got c ++ bs <+: y.output ∧ s'.got c = s.got c ++ bs := by
  cases st with
  | piece t c' f k y bs ht ho hk hy hp =>
    by_cases e : c' = c
    · subst e; exact .inr ⟨t, f, k, y, bs, rfl, ht, ho, hk, hy, hp, upd_self _ _ _⟩
    · exact .inl ⟨upd_ne _ _ (fun h => e h.symm), fun b bs h => by cases h; exact e rfl⟩
  | _ => exact .inl ⟨rfl, by simp⟩

theorem Spec.TcpExec.sends (hfair : e.Fair) {n t : Nat} {f : Flight σ} {k : Task σ}
    (ht : (e.state n).cfg.flights t = some f) (hk : f.code = .send k) : e.run.Moves t n := by
  refine Classical.byContradiction fun hno => ?_
  have hnm : ∀ m, n ≤ m → ¬ e.run.Of t m := fun m hm hp => hno ⟨m, hm, hp⟩
  have hst : ∀ m, n ≤ m → (e.state m).cfg.flights t = some f := fun m hm =>
    (e.run.still hm (fun j h1 _ => hnm j h1)).trans ht
  obtain ⟨c, y, ho, hy⟩ : ∃ c y, f.owner = some c ∧ k.final = some y := by
    have hout := (e.inv n).out t f ht
    rw [hk] at hout
    cases ho : f.owner with
    | none => rw [ho] at hout; exact absurd hout id
    | some c => rw [ho] at hout; obtain ⟨y, hy, _⟩ := hout; exact ⟨c, y, rfl, hy⟩
  have hpre : ∀ m, n ≤ m → (e.state m).got c <+: y.output := by
    intro m hm
    have hout := (e.inv m).out t f (hst m hm)
    rw [hk, ho] at hout
    obtain ⟨z, hz, h, _⟩ := hout
    rw [hy] at hz; cases hz; exact h
  have hmono1 : ∀ m, ((e.state m).got c).length ≤ ((e.state (m + 1)).got c).length := by
    intro m
    rcases got_step (e.step m) c with ⟨h, _⟩ | ⟨_, _, _, _, bs, _, _, _, _, _, _, h⟩
    · rw [h]; exact Nat.le_refl _
    · rw [h, List.length_append]; omega
  have hmono : ∀ m j, ((e.state m).got c).length ≤ ((e.state (m + j)).got c).length := by
    intro m j
    induction j with
    | zero => exact Nat.le_refl _
    | succ j ih => exact Nat.le_trans ih (hmono1 (m + j))
  have hcan : ∀ m, n ≤ m → (∃ b s', Tcp.Step env p (e.state m) (.piece c [b]) s') ∨ (e.state m).got c = y.output := by
    intro m hm
    obtain ⟨rest, hrest⟩ := hpre m hm
    cases rest with
    | nil => right; rw [← hrest, List.append_nil]
    | cons b rest =>
      left
      exact ⟨b, _, .piece _ t c f k y [b] (hst m hm) ho hk hy ⟨rest, by rw [← hrest, List.append_assoc]; rfl⟩⟩
  have hgrow : ∀ j, ∃ m, n ≤ m ∧ min j y.output.length ≤ ((e.state m).got c).length := by
    intro j
    induction j with
    | zero => exact ⟨n, Nat.le_refl n, by omega⟩
    | succ j ih =>
      obtain ⟨m, hm, hj⟩ := ih
      obtain ⟨m', hm', h | h⟩ := hfair.clients c trivial m
      · obtain ⟨b, bs, hl⟩ := h
        refine ⟨m' + 1, by omega, ?_⟩
        rcases got_step (e.step m') c with ⟨_, h⟩ | ⟨_, _, _, _, bs', h1, _, _, _, _, _, h⟩
        · exact absurd hl (h b bs)
        · rw [hl] at h1; cases h1
          have := hmono m (m' - m)
          rw [show m + (m' - m) = m' by omega] at this
          rw [h, List.length_append, List.length_cons]; omega
      · rcases hcan m' (by omega) with h' | h'
        · exact absurd h' h
        · exact ⟨m', by omega, by rw [h']; omega⟩
  obtain ⟨m, hm, hj⟩ := hgrow y.output.length
  have hall : ∀ m', m ≤ m' → (e.state m').got c = y.output := by
    intro m' hm'
    have h1 := hpre m' (by omega)
    have h2 := hmono m (m' - m)
    rw [show m + (m' - m) = m' by omega] at h2
    have h3 := h1.length_le
    exact h1.eq_of_length (by omega)
  obtain ⟨m', hm', h | h⟩ := hfair.tasks t m
  · exact hnm m' (by omega) (e.of_iff.2 h)
  · exact h ⟨_, _, .sent _ t c f k y (hst m' (by omega)) ho hk hy (hall m' hm'), trivial, rfl⟩

theorem Spec.TcpExec.works (hfair : e.Fair) : e.run.Works where
  free n t f hf hw := by
    by_cases hs : ∃ k, f.code = .send k
    · obtain ⟨k, hk⟩ := hs
      exact e.sends hfair hf hk
    · refine Classical.byContradiction fun hno => ?_
      have hnm : ∀ m, n ≤ m → ¬ e.run.Of t m := fun m hm hp => hno ⟨m, hm, hp⟩
      obtain ⟨m, hm, h | h⟩ := hfair.tasks t n
      · exact hnm m hm (e.of_iff.2 h)
      · exact h (tcp_canMove (f := f) ((e.run.still hm (fun j h1 _ => hnm j h1)).trans hf) hw
          (fun k hk => hs ⟨k, hk⟩))
  grant n t l hq := by
    obtain ⟨m, hm, h | h⟩ := hfair.tasks t n
    · exact ⟨m, hm, e.of_iff.2 h⟩
    · obtain ⟨⟨q, hq'⟩, hfree⟩ := hq m hm
      obtain ⟨f, m', k', hf, hw, hc⟩ := ((e.run.q m).queue l t).1 (by rw [hq']; simp)
      refine absurd ⟨_, _, .other _ _ _ (.grant _ t f l m' k' q hf hc hw hq' (fun u g m'' hu hg => ?_))
        (by simp) (by simp) ?_, trivial, rfl⟩ h
      · rw [hfree u g hu] at hg; simp at hg
      · intro u g k he hg
        cases he
        rw [show (e.state m).cfg.flights t = some f from hf] at hg; cases hg
        rw [hc]; simp

end

end Usbip
