import Verif.Lemmas.Freeze
import Verif.Lemmas.WholeLive
import Verif.Lemmas.Turn
/-! Helper lemmas: an import request ends up waiting for the table of used devices while a handler does not return (C106). -/

namespace Usbip
open Spec

/-- A run from time `n0` on. -/
def Run.shift {σ} {env : Env σ} {p : Profile} (e : Run (σ := σ) env p) (n0 : Nat) : Run (σ := σ) env p where
  state n := e.state (n0 + n)
  label n := e.label (n0 + n)
  q n := e.q _
  own n := e.own _
  within n := e.within _
  finite n := e.finite _
  stays n h := e.stays (n0 + n) h
  steps n lb h := e.steps (n0 + n) lb h

theorem Run.shift_moves {σ} {env : Env σ} {p : Profile} {e : Run (σ := σ) env p} {n0 t n : Nat} :
    (e.shift n0).Moves t n ↔ e.Moves t (n0 + n) := by
  constructor
  · rintro ⟨m, hm, h⟩; exact ⟨n0 + m, by omega, h⟩
  · rintro ⟨m, hm, h⟩
    obtain ⟨d, rfl⟩ := Nat.exists_eq_add_of_le (show n0 ≤ m by omega)
    exact ⟨d, by omega, h⟩

/-- What a program that is about to take a lock does next. -/
theorem lock_step {σ} {env : Env σ} {p : Profile} {s s' : Cfg σ} {lb : Label σ} (st : Cfg.Step env p s lb s') {t : Nat}
    {f : Flight σ} (hf : s.flights t = some f) (hp : prog lb = some t) (hd : ∀ o, lb ≠ .dropped t o) {l : Lk} {md : Mode}
    {k : Task σ} (hk : f.code = .lock l md k) :
    (f.waiting = false → s'.flights t = some { f with waiting := true }) ∧
    (f.waiting = true → s'.flights t = some { f with code := k, waiting := false, held := upd f.held l (some md) }) := by
  cases st <;> simp only [prog, Option.some.injEq, reduceCtorEq] at hp <;> subst hp
  case iterate ht hc hr hi => rw [hf] at ht; simp at ht
  case add ht => rw [hf] at ht; simp at ht
  case remove ht => rw [hf] at ht; simp at ht
  case abandon => exact absurd rfl (hd _)
  case request ht hk' hw =>
    rw [hf] at ht; cases ht
    exact ⟨fun _ => upd_self _ _ _, fun h => by rw [hw] at h; cases h⟩
  case grant ht hk' hw hq hc =>
    rw [hf] at ht; cases ht
    rw [hk] at hk'; cases hk'
    exact ⟨fun h => (by rw [hw] at h; cases h), fun _ => upd_self _ _ _⟩
  all_goals
    rename_i ht hk'
    rw [hf] at ht; cases ht
    rw [hk] at hk'; cases hk'

/-- What a program that is about to give up a lock does next. -/
theorem unlock_step {σ} {env : Env σ} {p : Profile} {s s' : Cfg σ} {lb : Label σ} (st : Cfg.Step env p s lb s') {t : Nat}
    {f : Flight σ} (hf : s.flights t = some f) (hp : prog lb = some t) (hd : ∀ o, lb ≠ .dropped t o) {l : Lk}
    {k : Task σ} (hk : f.code = .unlock l k) : s'.flights t = some { f with code := k, held := upd f.held l none } := by
  cases st <;> simp only [prog, Option.some.injEq, reduceCtorEq] at hp <;> subst hp
  case iterate ht hc hr hi => rw [hf] at ht; simp at ht
  case add ht => rw [hf] at ht; simp at ht
  case remove ht => rw [hf] at ht; simp at ht
  case abandon => exact absurd rfl (hd _)
  case request ht hk' hw =>
    rw [hf] at ht; cases ht
    rw [hk] at hk'; cases hk'
  case grant ht hk' hw hq hc =>
    rw [hf] at ht; cases ht
    rw [hk] at hk'; cases hk'
  case unlock ht hk' =>
    rw [hf] at ht; cases ht
    rw [hk] at hk'; cases hk'
    exact upd_self _ _ _
  all_goals
    rename_i ht hk'
    rw [hf] at ht; cases ht
    rw [hk] at hk'; cases hk'

section
variable {τ : Type} {code : Code τ} {env : Env (HandlerId → τ)} {p : Profile} {devices : List Device}
  {w : World (HandlerId → τ)} {e : WholeExec code env p (Whole.init code devices w)} {e' : TcpExec env p (Tcp.init devices w)}

/-- A program that is not at a handler call and can always get further does. -/
theorem Behind.moves_plain (B : Behind e e')
    (htasks : ∀ t n, ∃ m, n ≤ m ∧ (Acts t (e.state m) (e.label m) (e.state (m + 1)) ∨
      ¬ ∃ lb s', Whole.Step code env p (e.state m) lb s' ∧ Acts t (e.state m) lb s'))
    {t n : Nat} {f : Flight (HandlerId → τ)} (hf : (e'.state n).cfg.flights t = some f) (hk : ∀ g k, f.code ≠ .commit g k)
    (can : (∀ m, n ≤ m → ¬ e'.run.Of t m) → ∀ m, n ≤ m → (e'.state m).cfg.flights t = some f →
      ∃ lb s', Tcp.Step env p (e'.state m) (.server lb) s' ∧ Advances lb ∧ prog lb = some t) : e'.run.Moves t n := by
  refine Classical.byContradiction fun hno => ?_
  have hnm : ∀ m, n ≤ m → ¬ e'.run.Of t m := fun m hm hp => hno ⟨m, hm, hp⟩
  have H1 : ∀ m, n ≤ m → ∀ l, e'.label m = .server l → prog l ≠ some t :=
    fun m hm l h hp => hnm m hm (e'.of_iff.2 ⟨l, h, hp⟩)
  have hfl' : ∀ m, n ≤ m → (e'.state m).cfg.flights t = some f := fun m hm =>
    (e'.run.still hm (fun j h1 _ => hnm j h1)).trans hf
  have hfl : ∀ m, n ≤ m → (e.state m).fine.cfg.flights t = some f := fun m hm => by rw [← (B.cfg m).1]; exact hfl' m hm
  have hin : ∀ m, n ≤ m → (e.state m).fine.inside t = none := by
    intro m hm
    cases hi : (e.state m).fine.inside t with
    | none => rfl
    | some i =>
      obtain ⟨f', g, k, hf', hk', _⟩ := (B.inv m).call t i hi
      rw [hfl m hm] at hf'; cases hf'
      exact absurd hk' (hk g k)
  have acts : ∀ m, n ≤ m → ∃ lb s', Whole.Step code env p (e.state m) lb s' ∧ Acts t (e.state m) lb s' := by
    intro m hm
    obtain ⟨lb, s', st, ha, hp⟩ := can hnm m hm (hfl' m hm)
    obtain ⟨s2, st2, _⟩ := B.back m st (by
      intro l hl ho
      cases hl
      cases lb with
      | effect t' ev =>
        simp only [prog, Option.some.injEq] at hp
        subst hp
        cases st with
        | other _ _ st =>
          cases st with
          | commit _ f' g k hf' hk' =>
            rw [hfl' m hm] at hf'; cases hf'
            exact hk g k hk'
      | outside ev => exact ha
      | start => exact ho
      | inner => exact ho
      | ended => exact ho
      | dropped => exact ho) (by
      intro l t' hl hp'
      cases hl
      rw [hp] at hp'; cases hp'
      exact hin m hm)
    exact ⟨_, s2, st2, .inl ⟨lb, rfl, ha, hp⟩⟩
  obtain ⟨m, hm, h⟩ := htasks t n
  rcases h with (⟨l, h, _, hp⟩ | ⟨_, h⟩ | ⟨i, h, _⟩) | h
  · exact B.unlabelled (H1 m hm) l h hp
  · exact h (hin (m + 1) (by omega))
  · rw [hin m hm] at h; cases h
  · exact h (acts m hm)

/-- While a command keeps the table of used devices locked for reading, an import request comes to wait for the table of used devices, or somebody else does. -/
theorem Behind.writer_comes (B : Behind e e')
    (htasks : ∀ t n, ∃ m, n ≤ m ∧ (Acts t (e.state m) (e.label m) (e.state (m + 1)) ∨
      ¬ ∃ lb s', Whole.Step code env p (e.state m) lb s' ∧ Acts t (e.state m) lb s'))
    {n u t : Nat} (hu : ∀ m, n ≤ m → ∃ g, (e.state m).fine.cfg.flights u = some g ∧ g.held .used = some .r) {f : Flight (HandlerId → τ)} {x : Conn} {rest : Stream}
    {cmd : Cmd} {busid : Bytes} {wr : WriteRes} (hf : (e.state n).fine.cfg.flights t = some f) (hw : f.waiting = false)
    (hk : f.code = importTask p x rest cmd busid wr) (hd : ∀ m o, n ≤ m → e.label m ≠ some (.server (.dropped t o))) :
    ∃ m, n ≤ m ∧ ∃ v g k, (e.state m).fine.cfg.flights v = some g ∧ g.waiting = true ∧ g.code = .lock .used .w k := by
  refine Classical.byContradiction fun hno => ?_
  have H : ∀ m, n ≤ m → ∀ v g k, (e'.state m).cfg.flights v = some g → g.waiting = true → g.code ≠ .lock .used .w k :=
    fun m hm v g k h1 h2 h3 => hno ⟨m, hm, v, g, k, by rw [← (B.cfg m).1]; exact h1, h2, h3⟩
  have hnw : ∀ m, n ≤ m → ∀ v g, (e'.state m).cfg.flights v = some g → g.held .used ≠ some .w := by
    intro m hm v g hv hg
    rw [(B.cfg m).1] at hv
    obtain ⟨f', hf', hhe⟩ := hu m hm
    by_cases eq : v = u
    · subst eq; rw [hv] at hf'; cases hf'; rw [hhe] at hg; cases hg
    · have := (B.tame m).excl u v f' g (fun h => eq h.symm) hf' hv hg
      rw [hhe] at this; cases this
  -- whoever is first in the queue gets the lock
  have head : ∀ m v q, n ≤ m → (e'.state m).cfg.queue .used = v :: q → e'.run.Moves v m := by
    intro m v q hm hq
    obtain ⟨g, md, k, hg, hgw, hgk⟩ := ((e'.run.q m).queue .used v).1 (by
      show v ∈ (e'.state m).cfg.queue .used
      rw [hq]; simp)
    have hg : (e'.state m).cfg.flights v = some g := hg
    cases md with
    | w => exact absurd hgk (H m hm v g k hg hgw)
    | r =>
      refine B.moves_plain htasks hg (fun _ _ => by rw [hgk]; nofun) (fun hnm m' hm' hg' => ?_)
      have hhead : ∀ j, ∃ q', (e'.run.state (m + j)).queue .used = v :: q' := by
        intro j
        induction j with
        | zero => exact ⟨q, hq⟩
        | succ j ih =>
          obtain ⟨q', hq'⟩ := ih
          obtain ⟨pre, post, h1, h2, _⟩ := e'.run.queue_step (n := m + j) (pre := []) hq' (hnm (m + j) (by omega))
          rw [List.sublist_nil.1 h2] at h1
          exact ⟨post, h1⟩
      obtain ⟨j, rfl⟩ := Nat.exists_eq_add_of_le hm'
      obtain ⟨q', hq'⟩ := hhead j
      refine ⟨_, _, .other _ _ _ (.grant _ v g .used .r k q' hg' hgk hgw hq' (fun z h mh hz hh => ?_))
        (by simp) (by simp) ?_, trivial, rfl⟩
      · cases mh with
        | r => rfl
        | w => exact absurd hh (hnw _ (by omega) z h hz)
      · intro z h k' he hh
        cases he
        rw [hg'] at hh; cases hh
        rw [hgk]; simp
  have waits : ∀ m g k, n ≤ m → (e'.state m).cfg.flights t = some g → g.waiting = true → g.code = .lock .used .r k → e'.run.Moves t m := by
    intro m g k hm hg hgw hgk
    obtain ⟨d, rfl⟩ := Nat.exists_eq_add_of_le hm
    obtain ⟨pre, post, hq⟩ := List.append_of_mem (((e'.run.q (n + d)).queue .used t).2 ⟨g, .r, k, hg, hgw, hgk⟩)
    exact Run.shift_moves.1 ((e'.run.shift n).waiter_moves (l := .used) (fun a v q hq =>
      Run.shift_moves.2 (head (n + a) v q (by omega) hq)) pre.length d t pre post (Nat.le_refl _) hq)
  have free : ∀ m g, n ≤ m → (e'.state m).cfg.flights t = some g → g.waiting = false → (∀ k, g.code ≠ .send k) →
      (∀ a k, g.code ≠ .commit a k) → e'.run.Moves t m := fun m g hm hg hgw hs hc =>
    B.moves_plain htasks hg hc (fun _ m' _ hg' => tcp_canMove hg' hgw hs)
  have next : ∀ m g, n ≤ m → (e'.state m).cfg.flights t = some g → e'.run.Moves t m → ∃ m' lb a b, n ≤ m' ∧ Cfg.Step env p a lb b ∧
      a.flights t = some g ∧ prog lb = some t ∧ (∀ o, lb ≠ .dropped t o) ∧ b.flights = (e'.state (m' + 1)).cfg.flights := by
    intro m g hm hg hmv
    obtain ⟨m', hm', ⟨lb, hl, hp⟩, hs⟩ := e'.run.first hmv
    obtain ⟨a, b, st, ha, _, hb, _⟩ := e'.run.steps m' lb hl
    refine ⟨m', lb, a, b, by omega, st, by rw [ha]; exact hs.trans hg, hp, fun o eo => ?_, hb⟩
    subst eo
    obtain ⟨lb', hl', hp'⟩ := e'.of_iff.1 ⟨_, hl, hp⟩
    have hl2 : serverStep (e'.label m') = some (.dropped t o) := hl
    rw [hl'] at hl2
    simp only [serverStep, Option.some.injEq] at hl2
    subst hl2
    rw [B.label] at hl'
    cases hlab : e.label m' with
    | none => rw [hlab] at hl'; cases hl'
    | some z => rw [hlab] at hl'; cases hl'; exact hd m' o (by omega) hlab
  unfold importTask at hk
  rw [← (B.cfg n).1] at hf
  obtain ⟨m1, lb1, a1, b1, hm1, st1, ha1, hp1, hd1, hb1⟩ := next n f (Nat.le_refl _) hf (free n f (Nat.le_refl _) hf hw
    (fun _ => by rw [hk]; nofun) (fun _ _ => by rw [hk]; nofun))
  have g1 := (lock_step st1 ha1 hp1 hd1 hk).1 hw
  rw [hb1] at g1
  obtain ⟨m2, lb2, a2, b2, hm2, st2, ha2, hp2, hd2, hb2⟩ := next (m1 + 1) _ (by omega) g1 (waits (m1 + 1) _ _ (by omega) g1 rfl hk)
  have g2 := (lock_step st2 ha2 hp2 hd2 hk).2 rfl
  rw [hb2] at g2
  obtain ⟨m3, lb3, a3, b3, hm3, st3, ha3, hp3, hd3, hb3⟩ := next (m2 + 1) _ (by omega) g2 (free (m2 + 1) _ (by omega) g2 rfl
    (fun _ => nofun) (fun _ _ => nofun))
  have g3 := unlock_step st3 ha3 hp3 hd3 rfl
  rw [hb3] at g3
  obtain ⟨m4, lb4, a4, b4, hm4, st4, ha4, hp4, hd4, hb4⟩ := next (m3 + 1) _ (by omega) g3 (free (m3 + 1) _ (by omega) g3 rfl
    (fun _ => nofun) (fun _ _ => nofun))
  have g4 := (lock_step st4 ha4 hp4 hd4 rfl).1 rfl
  rw [hb4] at g4
  exact H (m4 + 1) (by omega) t _ _ g4 rfl rfl

/-- A connection that is between two commands, and for which no command begins, stays so, unless its task is dropped. -/
theorem idle_step {σ} {env : Env σ} {p : Profile} {devices : List Device} {w : World σ} {ls : List (TcpLabel σ)} {s s' : Tcp σ}
    {lb : TcpLabel σ} (hT : TInv env p devices w ls s) (st : Tcp.Step env p s lb s') {c : Nat} {x : Conn}
    (hx : s.cfg.conns c = some x) (hi : s.cfg.idle c) (hs : ∀ t wr, lb ≠ .server (.start t (.iterate c wr)))
    (hnf : lb ≠ .server (.outside (.cancel c))) : s'.cfg.idle c ∧ ∃ x', s'.cfg.conns c = some x' ∧ Kept c s s' x x' := by
  have same : s'.cfg.conns c = s.cfg.conns c → s'.buf c = s.buf c → s'.ended c = s.ended c →
      (∃ x', s'.cfg.conns c = some x' ∧ Kept c s s' x x') := fun h1 h2 h3 => ⟨x, h1.trans hx, .same x h2 h3⟩
  have hst := st
  cases st with
  | connect c' hc =>
    have : c ≠ c' := by rintro rfl; rw [hx] at hc; simp at hc
    exact ⟨hi, same (setConn_ne this) rfl rfl⟩
  | arrive c' bs hc he =>
    refine ⟨hi, x, hx, ?_⟩
    by_cases e : c = c'
    · subst e
      exact ⟨rfl, rfl, rfl, rfl, List.prefix_rfl, ⟨bs, by simp [upd_self], fun h => absurd he h⟩, fun _ h => h⟩
    · exact .same x (upd_ne _ _ e) rfl
  | hangup c' e hc he =>
    refine ⟨hi, x, hx, rfl, rfl, rfl, rfl, List.prefix_rfl, ⟨[], by simp, fun _ => rfl⟩, fun e' h => ?_⟩
    have : c ≠ c' := by rintro rfl; rw [he] at h; simp at h
    exact (upd_ne _ _ this).trans h
  | take c' x0 bs rest hc hi' hb =>
    refine ⟨hi, ?_⟩
    by_cases e : c = c'
    · subst e
      rw [hx] at hc; cases hc
      refine ⟨_, if_pos rfl, rfl, rfl, rfl, rfl, List.prefix_append _ _, ⟨[], ?_, fun _ => rfl⟩, fun _ h => h⟩
      simp [upd_self, hb]
    · exact same (setConn_ne e) (upd_ne _ _ e) rfl
  | iterate t c' w x0 ht hc hr hi' hd =>
    refine ⟨fun v g hv hg => ?_, same rfl rfl rfl⟩
    by_cases e : v = t
    · subst e
      have : some _ = some g := (upd_self _ _ _).symm.trans hv
      cases this
      cases hg
      exact hs _ _ rfl
    · exact hi v g ((upd_ne _ _ e).symm.trans hv) hg
  | iterateEnd t c' w x0 er ht hc hr hi' he hb =>
    refine ⟨fun v g hv hg => ?_, same rfl rfl rfl⟩
    by_cases e : v = t
    · subst e
      have : some _ = some g := (upd_self _ _ _).symm.trans hv
      cases this
      cases hg
      exact hs _ _ rfl
    · exact hi v g ((upd_ne _ _ e).symm.trans hv) hg
  | piece t c' f k y bs ht ho hk hy hp => exact ⟨hi, same rfl rfl rfl⟩
  | sent t c' f k y ht ho hk hy hp =>
    refine ⟨fun v g hv hg => ?_, same rfl rfl rfl⟩
    by_cases e : v = t
    · subst e
      have : some _ = some g := (upd_self _ _ _).symm.trans hv
      cases this
      exact hi v f ht hg
    · exact hi v g ((upd_ne _ _ e).symm.trans hv) hg
  | other lb0 cfg' st0 h1 h2 h3 =>
    refine ⟨fun v g hv hg => ?_, ?_⟩
    · obtain ⟨f, hf, ho, _⟩ := step_flight (fun t u f g c h1 h2 h3 h4 => hT.owners h1 h2 h3 h4) st0 h1 h2 v g c hv hg
      exact hi v f hf ho
    · cases st0 with
      | connect c' input hc => exact absurd rfl (h1 _ _)
      | iterate t c' w x ht hc hr hi => exact absurd rfl (h2 _ _ _)
      | finish t f z hf hk => exact same (finished_ne (hi t f hf)) rfl rfl
      | abandon t f hf hc => exact same (dropped_ne (hi t f hf)) rfl rfl
      | cancel c' x0 hc hr hi' =>
        by_cases e : c = c'
        · subst e; exact absurd rfl hnf
        · exact same (setConn_ne e) rfl rfl
      | _ => exact same rfl rfl rfl

/-- On a connection that is between two commands and on which a command has arrived, the loop goes on. -/
theorem Spec.TcpExec.begins {σ} {env : Env σ} {p : Profile} {devices : List Device} {w : World σ}
    (e : TcpExec env p (Tcp.init devices w))
    (hreads : ∀ c n, ∃ m, n ≤ m ∧ ((e.label m = .take c ∧ (e.state (m + 1)).buf c ≠ (e.state m).buf c) ∨
      ¬ ∃ s', Tcp.Step env p (e.state m) (.take c) s' ∧ s'.buf c ≠ (e.state m).buf c))
    (hloops : ∀ c n, ∃ m, n ≤ m ∧ ((∃ t w, e.label m = .server (.start t (.iterate c w))) ∨
      ¬ ∃ t w s', Tcp.Step env p (e.state m) (.server (.start t (.iterate c w))) s'))
    {n c : Nat} {x : Conn} (hx : (e.state n).cfg.conns c = some x) (hr : x.status = .running) (hi : (e.state n).cfg.idle c)
    (hin : (readCommand p : Rd Arrived Cmd) ⟨x.input.bytes ++ (e.state n).buf c⟩ ≠ .diverge)
    (hnf : ∀ m, n ≤ m → e.label m ≠ .server (.outside (.cancel c))) :
    ∃ m x' t wr, n ≤ m ∧ e.label m = .server (.start t (.iterate c wr)) ∧ (e.state m).cfg.conns c = some x' ∧
      ∃ more, x'.input.bytes ++ (e.state m).buf c = x.input.bytes ++ (e.state n).buf c ++ more := by
  refine Classical.byContradiction fun hnot => ?_
  have main : ∀ j, (e.state (n + j)).cfg.idle c ∧ ∃ x', (e.state (n + j)).cfg.conns c = some x' ∧ Kept c (e.state n) (e.state (n + j)) x x' := by
    intro j
    induction j with
    | zero => exact ⟨hi, x, hx, .same x rfl rfl⟩
    | succ j ih =>
      obtain ⟨hij, x', hx', hk⟩ := ih
      obtain ⟨h1, x'', h2, h3⟩ := idle_step (e.inv (n + j)) (e.step (n + j)) hx' hij (fun t wr hl =>
        hnot ⟨n + j, x', t, wr, by omega, hl, hx', hk.bytes.imp fun _ h => h.1⟩) (hnf (n + j) (by omega))
      exact ⟨h1, x'', h2, hk.trans h3⟩
  have hk2 : ∀ m, n ≤ m → ∀ z, (e.state m).cfg.conns c = some z → ∀ j, ∃ z', (e.state (m + j)).cfg.conns c = some z' ∧
      Kept c (e.state m) (e.state (m + j)) z z' := by
    intro m hm z hz j
    induction j with
    | zero => exact ⟨z, hz, .same z rfl rfl⟩
    | succ j ih =>
      obtain ⟨z1, hz1, hk1⟩ := ih
      obtain ⟨d, rfl⟩ := Nat.exists_eq_add_of_le hm
      obtain ⟨hij, z0, hz0, hk0⟩ := main (d + j)
      rw [← Nat.add_assoc] at hij hz0 hk0
      rw [hz1] at hz0; cases hz0
      obtain ⟨_, x'', h2, h3⟩ := idle_step (e.inv (n + d + j)) (e.step (n + d + j)) hz1 hij (fun t wr hl =>
        hnot ⟨n + d + j, z1, t, wr, by omega, hl, hz1, hk0.bytes.imp fun _ h => h.1⟩) (hnf (n + d + j) (by omega))
      exact ⟨x'', h2, hk1.trans h3⟩
  have main' : ∀ m, n ≤ m → (e.state m).cfg.idle c ∧ ∃ x', (e.state m).cfg.conns c = some x' ∧ Kept c (e.state n) (e.state m) x x' := by
    intro m hm
    obtain ⟨j, rfl⟩ := Nat.exists_eq_add_of_le hm
    exact main j
  have hgrow : ∀ j, ∃ m x', n ≤ m ∧ (e.state m).cfg.conns c = some x' ∧
      min j (x.input.bytes ++ (e.state n).buf c).length ≤ x'.input.bytes.length := by
    intro j
    induction j with
    | zero => exact ⟨n, x, Nat.le_refl n, hx, by omega⟩
    | succ j ih =>
      obtain ⟨m, x', hm, hx', hj⟩ := ih
      obtain ⟨m', hm', h⟩ := hreads c m
      obtain ⟨z, hz, hkz⟩ := hk2 m hm x' hx' (m' - m)
      rw [show m + (m' - m) = m' by omega] at hz hkz
      have hlen := hkz.grows.length_le
      rcases h with ⟨hl, hb⟩ | h
      · have st := e.step m'
        rw [hl] at st
        obtain ⟨bs, rest, h1, h2, h3⟩ := take_step st hz
        refine ⟨m' + 1, _, by omega, h3, ?_⟩
        have : bs ≠ [] := by rintro rfl; exact hb (by rw [h1, h2]; rfl)
        have := List.length_pos_iff.2 this
        simp only [List.length_append]
        simp only [List.length_append] at hj
        omega
      · refine ⟨m', z, by omega, hz, ?_⟩
        have hnil : (e.state m').buf c = [] := by
          refine Classical.byContradiction fun hne => h ⟨_, .take _ c z ((e.state m').buf c) [] hz (main' m' (by omega)).1
            (by rw [List.append_nil]), ?_⟩
          dsimp only
          rw [upd_self]
          exact fun h => hne h.symm
        obtain ⟨_, z', hz', hk'⟩ := main' m' (by omega)
        rw [hz] at hz'; cases hz'
        obtain ⟨more, hmore, _⟩ := hk'.bytes
        rw [hnil, List.append_nil] at hmore
        have := congrArg List.length hmore
        simp only [List.length_append] at this ⊢
        omega
  obtain ⟨m0, x0, hm0, hx0, hlen0⟩ := hgrow (x.input.bytes ++ (e.state n).buf c).length
  obtain ⟨m, hm, h⟩ := hloops c m0
  rcases h with ⟨t, wr, hl⟩ | h
  · obtain ⟨_, x', hx', hk⟩ := main' m (by omega)
    exact hnot ⟨m, x', t, wr, by omega, hl, hx', hk.bytes.imp fun _ h => h.1⟩
  · obtain ⟨z, hz, hkz⟩ := hk2 m0 hm0 x0 hx0 (m - m0)
    rw [show m0 + (m - m0) = m by omega] at hz hkz
    obtain ⟨him, z', hz', hk'⟩ := main' m (by omega)
    rw [hz] at hz'; cases hz'
    obtain ⟨more, hmore, hnone⟩ := hk'.bytes
    have hlen := hkz.grows.length_le
    obtain ⟨N, hN⟩ := (e.inv m).finite
    have hpre : x.input.bytes ++ (e.state n).buf c <+: z.input.bytes :=
      List.prefix_of_prefix_length_le (l₃ := z.input.bytes ++ (e.state m).buf c)
        (by rw [hmore]; exact List.prefix_append _ _) (List.prefix_append _ _) (by omega)
    obtain ⟨more', hmore'⟩ := hpre
    refine h ⟨N, .full, _, .iterate _ N c .full z (hN N (Nat.le_refl N)) hz (hk'.status.trans hr) him ?_⟩
    rw [← hmore']
    exact other_ne_diverge p _ more' hin

/-- An import request that has arrived on a connection between two commands comes to wait for the table of used devices,
or somebody else does, while a command keeps the table locked for reading. -/
theorem Behind.import_comes (B : Behind e e')
    (htasks : ∀ t n, ∃ m, n ≤ m ∧ (Acts t (e.state m) (e.label m) (e.state (m + 1)) ∨
      ¬ ∃ lb s', Whole.Step code env p (e.state m) lb s' ∧ Acts t (e.state m) lb s'))
    (hreads : ∀ c n, ∃ m, n ≤ m ∧ ((e.label m = some (.take c) ∧ (e.state (m + 1)).buf c ≠ (e.state m).buf c) ∨
      ¬ ∃ s', Whole.Step code env p (e.state m) (some (.take c)) s' ∧ s'.buf c ≠ (e.state m).buf c))
    (hloops : ∀ c n, ∃ m, n ≤ m ∧ ((∃ t w, e.label m = some (.server (.start t (.iterate c w)))) ∨
      ¬ ∃ t w s', Whole.Step code env p (e.state m) (some (.server (.start t (.iterate c w)))) s'))
    {n u c : Nat} (hu : ∀ m, n ≤ m → ∃ g, (e.state m).fine.cfg.flights u = some g ∧ g.held .used = some .r) {x : Conn}
    (hx : (e.state n).fine.cfg.conns c = some x) (hr : x.status = .running) (hi : (e.state n).fine.cfg.idle c)
    {st : UInt32} {busid : Bytes} {more : Arrived}
    (hin : (readCommand p : Rd Arrived Cmd) ⟨x.input.bytes ++ (e.state n).buf c⟩ = .ok (.reqImport st busid, more))
    (hnf : ∀ m, n ≤ m → e.label m ≠ some (.server (.outside (.cancel c)))) (hd : ∀ m t o, n ≤ m → e.label m ≠ some (.server (.dropped t o))) :
    ∃ m, n ≤ m ∧ ∃ v g k, (e.state m).fine.cfg.flights v = some g ∧ g.waiting = true ∧ g.code = .lock .used .w k := by
  obtain ⟨m, x', t, wr, hm, hl, hx', more', hmore'⟩ := e'.begins (n := n) (c := c) (x := x) (fun c n => by
      obtain ⟨m, hm, h⟩ := hreads c n
      refine ⟨m, hm, ?_⟩
      rw [B.label, (B.cfg m).2.2.2.2.1, (B.cfg (m + 1)).2.2.2.2.1]
      rcases h with ⟨h1, h2⟩ | h
      · exact .inl ⟨by rw [h1]; rfl, h2⟩
      · refine .inr (fun ⟨s', st, hb⟩ => h ?_)
        obtain ⟨s2, st2, he⟩ := B.back m st (fun l e => by cases e) (fun l t e => by cases e)
        exact ⟨s2, st2, by rw [he]; exact hb⟩) (fun c n => by
      obtain ⟨m, hm, h⟩ := hloops c n
      refine ⟨m, hm, ?_⟩
      rw [B.label]
      rcases h with ⟨t, w, h⟩ | h
      · exact .inl ⟨t, w, by rw [h]; rfl⟩
      · refine .inr (fun ⟨t, w, s', st⟩ => h ?_)
        obtain ⟨s2, st2, he⟩ := B.back m st (fun l e => by cases e; exact id) (fun l u e hu => by
          cases e
          simp only [prog, Option.some.injEq] at hu
          subst hu
          cases hi : (e.state m).fine.inside t with
          | none => rfl
          | some i =>
            obtain ⟨f', g, k, hf', hk', _⟩ := (B.inv m).call t i hi
            rw [← (B.cfg m).1] at hf'
            cases st with
            | iterate _ _ _ _ ht => rw [ht] at hf'; cases hf'
            | iterateEnd _ _ _ _ _ ht => rw [ht] at hf'; cases hf'
            | other _ _ _ _ h2 => exact absurd rfl (h2 _ _ _))
        exact ⟨t, w, s2, st2⟩)
    (by rw [B.conns_eq]; exact hx) hr (B.idle_iff.2 hi) (by rw [B.buf_eq, hin]; nofun)
    (fun m hm => by
      rw [B.label]
      cases hl : e.label m with
      | none => nofun
      | some lb => exact fun h => hnf m hm (by rw [hl]; exact congrArg some h))
  have hl' : e.label m = some (.server (.start t (.iterate c wr))) := by
    rw [B.label] at hl
    cases h : e.label m with
    | none => rw [h] at hl; cases hl
    | some lb => rw [h] at hl; exact congrArg some hl
  have hst := e'.step m
  rw [hl] at hst
  have hmore' : x'.input.bytes ++ (e'.state m).buf c = x.input.bytes ++ (e.state n).buf c ++ more' := by
    rw [← B.buf_eq n]; exact hmore'
  have hearly := early_readCommand p (x.input.bytes ++ (e.state n).buf c)
  rw [hin] at hearly
  have key : ∃ (y : Conn) (rest : Stream) (f : Flight (HandlerId → τ)), (e'.state (m + 1)).cfg.flights t = some f ∧
      f.waiting = false ∧ f.code = importTask p y rest (.reqImport st busid) busid wr := by
    generalize e'.state (m + 1) = s1 at hst
    cases hst with
    | iterate _ _ _ y ht hc hrun hidle hdv =>
      rw [hx'] at hc; cases hc
      have h2 := early_readCommand p x'.input.bytes
      have : ∃ r, (readCommand p : Rd Stream Cmd) x'.input = .ok (.reqImport st busid, r) := by
        have h3 := hearly more' x'.input.fin
        rw [← hmore'] at h3
        cases hq : (readCommand p : Rd Arrived Cmd) ⟨x'.input.bytes⟩ with
        | diverge => exact absurd hq hdv
        | err er => rw [hq] at h2; rw [h2] at h3; cases h3
        | panic => rw [hq] at h2; rw [h2] at h3; cases h3
        | ok q =>
          obtain ⟨cm, r⟩ := q
          rw [hq] at h2
          have h4 := h2 (e'.state m |>.buf c) x'.input.fin
          rw [h3] at h4
          simp only [Outcome.ok.injEq, Prod.mk.injEq] at h4
          obtain ⟨rfl, _⟩ := h4
          have h5 := h2 [] x'.input.fin
          rw [List.append_nil] at h5
          exact ⟨_, h5⟩
      obtain ⟨r, hr'⟩ := this
      refine ⟨x', r, _, upd_self _ _ _, rfl, ?_⟩
      show iterTask env p x' wr = _
      unfold iterTask
      rw [hr']
    | iterateEnd _ _ _ y er ht hc hrun hidle hend hbn =>
      rw [hx'] at hc; cases hc
      rw [hbn, List.append_nil] at hmore'
      have h3 := hearly more' er
      rw [← hmore'] at h3
      refine ⟨{ x' with input := ⟨x'.input.bytes, er⟩ }, ⟨more.bytes ++ more', er⟩, _, upd_self _ _ _, rfl, ?_⟩
      show iterTask env p { x' with input := ⟨x'.input.bytes, er⟩ } wr = _
      unfold iterTask
      dsimp only
      rw [h3]
    | other _ _ _ _ h2 => exact absurd rfl (h2 _ _ _)
  obtain ⟨y, rest, f, hf, hw, hk⟩ := key
  obtain ⟨m', hm', h⟩ := B.writer_comes htasks (n := m + 1) (fun m' h => hu m' (by omega)) (by rw [← (B.cfg (m + 1)).1]; exact hf) hw hk
    (fun m' o h => hd m' t o (by omega))
  exact ⟨m', by omega, h⟩

end

end Usbip
