import Verif.Spec.Listen
import Verif.Lemmas.Locks
/-!
# Lemmas about calls of `server`
-/

namespace Usbip
open Spec

/-- The numbers a process state uses consistently. -/
structure PInv {σ} (s : Proc σ) : Prop where
  conn : ∀ c, s.net.sys.conns c ≠ none ↔ s.front c = .accepted
  fresh : ∀ c, s.net.sys.conns c = none → s.net.ended c = none
  queued : ∀ k q, s.calls k = some (.listening q) → ∀ c ∈ q, ∃ b e, s.front c = .waiting b e
  once : ∀ k q, s.calls k = some (.listening q) → q.Nodup
  apart : ∀ k k' q q', s.calls k = some (.listening q) → s.calls k' = some (.listening q') → k ≠ k' →
    ∀ c ∈ q, c ∉ q'

theorem Conn.drop_drop (x : Conn) : x.drop.drop = x.drop := by
  unfold Conn.drop
  split <;> simp_all

theorem net_step_conns {σ} (env : Env σ) (p : Profile) (n : Net σ) (e : NetEvent σ) (he : ∀ c, e ≠ .connect c) (c : Nat) :
    ((n.step env p e).sys.conns c = none ↔ n.sys.conns c = none) ∧
    (n.sys.conns c = none → (n.step env p e).ended c = n.ended c) := by
  have key : ∀ (cs : Nat → Option Conn) (d : Nat) (x y : Conn), cs d = some x → (setConn cs d y c = none ↔ cs c = none) := by
    intro cs d x y h
    unfold setConn
    split
    · rename_i e; subst e; simp [h]
    · rfl
  cases e with
  | connect d => exact absurd rfl (he d)
  | arrive d bs =>
    simp only [Net.step]
    split
    · rename_i x hx _
      exact ⟨key _ _ _ _ hx, fun _ => rfl⟩
    · exact ⟨Iff.rfl, fun _ => rfl⟩
  | hangup d er =>
    simp only [Net.step]
    split
    · rename_i x hx _
      refine ⟨key _ _ _ _ hx, fun h => if_neg ?_⟩
      rintro rfl
      rw [h] at hx; simp at hx
    · exact ⟨Iff.rfl, fun _ => rfl⟩
  | iterate d w =>
    simp only [Net.step]
    split
    · refine ⟨?_, fun _ => rfl⟩
      simp only [Sys.step]
      split
      · rename_i x hx
        split
        · exact key _ _ _ _ hx
        · exact Iff.rfl
      · exact Iff.rfl
    · exact ⟨Iff.rfl, fun _ => rfl⟩
  | cancel d =>
    refine ⟨?_, fun _ => rfl⟩
    simp only [Net.step, Sys.step]
    split
    · rename_i x hx
      split
      · exact key _ _ _ _ hx
      · exact Iff.rfl
    · exact Iff.rfl
  | addDevice d => exact ⟨Iff.rfl, fun _ => rfl⟩
  | removeDevice d => exact ⟨Iff.rfl, fun _ => rfl⟩
  | user f => exact ⟨Iff.rfl, fun _ => rfl⟩

theorem PInv.init {σ} (devices : List Device) (w : World σ) : PInv (Proc.init devices w) where
  conn c := by simp [Proc.init, Net.init, Sys.init]
  fresh _ _ := rfl
  queued k q h := by simp [Proc.init] at h
  once k q h := by simp [Proc.init] at h
  apart k k' q q' h := by simp [Proc.init] at h

theorem PInv.inner {σ} {env : Env σ} {p : Profile} {s : Proc σ} (h : PInv s) (e : NetEvent σ) (he : ∀ c, e ≠ .connect c) :
    PInv { s with net := s.net.step env p e } where
  conn c := (not_congr (net_step_conns env p s.net e he c).1).trans (h.conn c)
  fresh c hc := by
    have := net_step_conns env p s.net e he c
    have hn := this.1.mp hc
    exact (this.2 hn).trans (h.fresh c hn)
  queued := h.queued
  once := h.once
  apart := h.apart

theorem PInv.step {σ} {env : Env σ} {p : Profile} {s : Proc σ} (h : PInv s) (e : ProcEvent σ) : PInv (s.step env p e) := by
  cases e with
  | serve k b =>
    simp only [Proc.step]
    split
    · rename_i hk
      have look : ∀ k' q, upd s.calls k (some (if b then .listening [] else .panicked)) k' = some (.listening q) →
          (k' = k ∧ q = []) ∨ s.calls k' = some (.listening q) := by
        intro k' q hq
        by_cases e : k' = k
        · subst e; rw [upd_self] at hq
          cases b <;> simp at hq
          exact .inl ⟨rfl, hq⟩
        · rw [upd_ne _ _ e] at hq; exact .inr hq
      refine ⟨h.conn, h.fresh, ?_, ?_, ?_⟩
      · intro k' q hq c hc
        rcases look k' q hq with ⟨_, rfl⟩ | hq
        · simp at hc
        · exact h.queued k' q hq c hc
      · intro k' q hq
        rcases look k' q hq with ⟨_, rfl⟩ | hq
        · exact List.nodup_nil
        · exact h.once k' q hq
      · intro k1 k2 q1 q2 h1 h2 hne c hc
        rcases look k1 q1 h1 with ⟨_, rfl⟩ | h1
        · simp at hc
        · rcases look k2 q2 h2 with ⟨_, rfl⟩ | h2
          · simp
          · exact h.apart k1 k2 q1 q2 h1 h2 hne c hc
    · exact h
  | dial k c =>
    simp only [Proc.step]
    have unknown : s.front c = .unknown → ∀ k' q, s.calls k' = some (.listening q) → c ∉ q := by
      intro hu k' q hq hc
      obtain ⟨b, e, hw⟩ := h.queued k' q hq c hc
      rw [hu] at hw; simp at hw
    split
    · rename_i q hk hu
      have look : ∀ k' q', upd s.calls k (some (.listening (q ++ [c]))) k' = some (.listening q') →
          (k' = k ∧ q' = q ++ [c]) ∨ (k' ≠ k ∧ s.calls k' = some (.listening q')) := by
        intro k' q' hq
        by_cases e : k' = k
        · subst e; rw [upd_self] at hq
          simp only [Option.some.injEq, Serving.listening.injEq] at hq
          exact .inl ⟨rfl, hq.symm⟩
        · rw [upd_ne _ _ e] at hq; exact .inr ⟨e, hq⟩
      refine ⟨?_, h.fresh, ?_, ?_, ?_⟩
      · intro d
        by_cases e : d = c
        · subst e
          have := h.conn d
          simp only [upd_self, reduceCtorEq, iff_false]
          rw [this, hu]; simp
        · dsimp only; rw [upd_ne _ _ e]; exact h.conn d
      · intro k' q' hq d hd
        by_cases e : d = c
        · subst e; exact ⟨_, _, upd_self _ _ _⟩
        · dsimp only; rw [upd_ne _ _ e]
          rcases look k' q' hq with ⟨rfl, rfl⟩ | ⟨_, hq⟩
          · simp only [List.mem_append, List.mem_singleton, e, or_false] at hd
            exact h.queued _ q hk d hd
          · exact h.queued k' q' hq d hd
      · intro k' q' hq
        rcases look k' q' hq with ⟨rfl, rfl⟩ | ⟨_, hq⟩
        · exact List.nodup_append.mpr ⟨h.once _ q hk, by simp, fun a ha b hb => by
            rw [List.mem_singleton.mp hb]; rintro rfl; exact unknown hu _ q hk ha⟩
        · exact h.once k' q' hq
      · intro k1 k2 q1 q2 h1 h2 hne d hd
        rcases look k1 q1 h1 with ⟨rfl, rfl⟩ | ⟨_, g1⟩
        · rcases look k2 q2 h2 with ⟨rfl, rfl⟩ | ⟨_, g2⟩
          · exact absurd rfl hne
          · rcases List.mem_append.mp hd with hd | hd
            · exact h.apart _ k2 q q2 hk g2 hne d hd
            · rw [List.mem_singleton.mp hd]; exact unknown hu k2 q2 g2
        · rcases look k2 q2 h2 with ⟨rfl, rfl⟩ | ⟨_, g2⟩
          · intro hd'
            rcases List.mem_append.mp hd' with hd' | hd'
            · exact h.apart k1 _ q1 q g1 hk hne d hd hd'
            · rw [List.mem_singleton.mp hd'] at hd; exact unknown hu k1 q1 g1 hd
          · exact h.apart k1 k2 q1 q2 g1 g2 hne d hd
    · rename_i hu _
      refine ⟨?_, h.fresh, ?_, h.once, h.apart⟩
      · intro d
        by_cases e : d = c
        · subst e
          have := h.conn d
          simp only [upd_self, reduceCtorEq, iff_false]
          rw [this, hu]; simp
        · dsimp only; rw [upd_ne _ _ e]; exact h.conn d
      · intro k' q' hq d hd
        by_cases e : d = c
        · subst e; exact absurd hd (unknown hu k' q' hq)
        · dsimp only; rw [upd_ne _ _ e]; exact h.queued k' q' hq d hd
    · exact h
  | acceptOk k =>
    simp only [Proc.step]
    split
    · rename_i c q hk
      split
      · rename_i bs e hw
        have hnd := h.once k _ hk
        have look : ∀ k' q', upd s.calls k (some (.listening q)) k' = some (.listening q') →
            (k' = k ∧ q' = q) ∨ (k' ≠ k ∧ s.calls k' = some (.listening q')) := by
          intro k' q' hq
          by_cases e : k' = k
          · subst e; rw [upd_self] at hq
            simp only [Option.some.injEq, Serving.listening.injEq] at hq
            exact .inl ⟨rfl, hq.symm⟩
          · rw [upd_ne _ _ e] at hq; exact .inr ⟨e, hq⟩
        refine ⟨?_, ?_, ?_, ?_, ?_⟩
        · intro d
          by_cases e : d = c
          · subst e; simp [Net.accept, setConn, upd_self]
          · dsimp only [Net.accept]; rw [upd_ne _ _ e]; simp only [setConn, e, if_false]; exact h.conn d
        · intro d hd
          by_cases e : d = c
          · subst e; simp [Net.accept, setConn] at hd
          · simp only [Net.accept, setConn, e, if_false] at hd ⊢
            exact h.fresh d hd
        · intro k' q' hq d hd
          have hd' : d ≠ c := by
            rintro rfl
            rcases look k' q' hq with ⟨rfl, rfl⟩ | ⟨hne, hq⟩
            · exact (List.nodup_cons.mp hnd).1 hd
            · exact h.apart k k' _ q' hk hq (Ne.symm hne) d (by simp) hd
          dsimp only; rw [upd_ne _ _ hd']
          rcases look k' q' hq with ⟨rfl, rfl⟩ | ⟨_, hq⟩
          · exact h.queued _ _ hk d (List.mem_cons_of_mem _ hd)
          · exact h.queued k' q' hq d hd
        · intro k' q' hq
          rcases look k' q' hq with ⟨rfl, rfl⟩ | ⟨_, hq⟩
          · exact (List.nodup_cons.mp hnd).2
          · exact h.once k' q' hq
        · intro k1 k2 q1 q2 h1 h2 hne d hd
          rcases look k1 q1 h1 with ⟨rfl, rfl⟩ | ⟨_, g1⟩
          · rcases look k2 q2 h2 with ⟨rfl, rfl⟩ | ⟨_, g2⟩
            · exact absurd rfl hne
            · exact h.apart _ k2 _ q2 hk g2 hne d (List.mem_cons_of_mem _ hd)
          · rcases look k2 q2 h2 with ⟨rfl, rfl⟩ | ⟨_, g2⟩
            · exact fun hd' => h.apart k1 _ q1 _ g1 hk hne d hd (List.mem_cons_of_mem _ hd')
            · exact h.apart k1 k2 q1 q2 g1 g2 hne d hd
      · exact h
    · exact h
  | acceptErr k => exact h
  | dropServe k =>
    simp only [Proc.step]
    split
    · rename_i q hk
      have look : ∀ k' q', upd s.calls k (some .dropped) k' = some (.listening q') →
          k' ≠ k ∧ s.calls k' = some (.listening q') := by
        intro k' q' hq
        by_cases e : k' = k
        · subst e; rw [upd_self] at hq; simp at hq
        · rw [upd_ne _ _ e] at hq; exact ⟨e, hq⟩
      refine ⟨?_, h.fresh, ?_, fun k' q' hq => h.once k' q' (look k' q' hq).2,
        fun k1 k2 q1 q2 h1 h2 => h.apart k1 k2 q1 q2 (look k1 q1 h1).2 (look k2 q2 h2).2⟩
      · intro c
        dsimp only
        split
        · rename_i hc
          obtain ⟨b, e, hw⟩ := h.queued k q hk c hc
          have := h.conn c
          rw [hw] at this
          simp only [reduceCtorEq, iff_false] at this ⊢
          exact this
        · exact h.conn c
      · intro k' q' hq c hc
        obtain ⟨hne, hq⟩ := look k' q' hq
        dsimp only
        rw [if_neg (h.apart k' k q' q hq hk hne c hc)]
        exact h.queued k' q' hq c hc
    · exact h
  | shutdown =>
    have look : ∀ k q, (s.calls k).map (fun a => match a with | .listening _ => Serving.dropped | a => a) ≠ some (.listening q) := by
      intro k q
      cases s.calls k with
      | none => simp
      | some a => cases a <;> simp
    refine ⟨?_, ?_, fun k q hq => absurd hq (look k q), fun k q hq => absurd hq (look k q),
      fun k k' q q' hq => absurd hq (look k q)⟩
    · intro c
      have := h.conn c
      simp only [Proc.step, Ne, Option.map_eq_none_iff] at this ⊢
      rw [this]
      cases s.front c <;> simp
    · intro c hc
      simp only [Proc.step, Option.map_eq_none_iff] at hc ⊢
      exact h.fresh c hc
  | arrive c bs =>
    simp only [Proc.step]
    split
    · rename_i b hw
      refine ⟨?_, h.fresh, ?_, h.once, h.apart⟩
      · intro d
        by_cases e : d = c
        · subst e
          have := h.conn d
          rw [hw] at this
          simpa [upd_self] using this
        · dsimp only; rw [upd_ne _ _ e]; exact h.conn d
      · intro k' q' hq d hd
        by_cases e : d = c
        · subst e; exact ⟨_, _, upd_self _ _ _⟩
        · dsimp only; rw [upd_ne _ _ e]; exact h.queued k' q' hq d hd
    · exact h.inner _ (by simp)
    · exact h
  | hangup c er =>
    simp only [Proc.step]
    split
    · rename_i b hw
      refine ⟨?_, h.fresh, ?_, h.once, h.apart⟩
      · intro d
        by_cases e : d = c
        · subst e
          have := h.conn d
          rw [hw] at this
          simpa [upd_self] using this
        · dsimp only; rw [upd_ne _ _ e]; exact h.conn d
      · intro k' q' hq d hd
        by_cases e : d = c
        · subst e; exact ⟨_, _, upd_self _ _ _⟩
        · dsimp only; rw [upd_ne _ _ e]; exact h.queued k' q' hq d hd
    · exact h.inner _ (by simp)
    · exact h
  | iterate c w => exact h.inner _ (by simp)
  | cancel c => exact h.inner _ (by simp)
  | addDevice d => exact h.inner _ (by simp)
  | removeDevice id => exact h.inner _ (by simp)
  | user f => exact h.inner _ (by simp)

theorem PInv.run {σ} {env : Env σ} {p : Profile} (es : List (ProcEvent σ)) {s : Proc σ} (h : PInv s) :
    PInv (s.run env p es) := by
  induction es generalizing s with
  | nil => exact h
  | cons e es ih => exact ih (h.step e)

/-- Dropping tasks one by one. -/
theorem run_cancels {σ} (env : Env σ) (p : Profile) (ds : List Nat) (n : Net σ) :
    n.run env p (ds.map .cancel) = { n with sys := { n.sys with
      conns := fun c => if c ∈ ds then (n.sys.conns c).map Conn.drop else n.sys.conns c } } := by
  induction ds generalizing n with
  | nil => simp [Net.run]
  | cons d ds ih =>
    have h1 : n.step env p (.cancel d) = { n with sys := { n.sys with
        conns := fun c => if c = d then (n.sys.conns c).map Conn.drop else n.sys.conns c } } := by
      simp only [Net.step, Sys.step]
      split
      · rename_i x hx
        split
        · rename_i hr
          congr 2
          funext c
          unfold setConn
          split
          · rename_i e; subst e; simp [hx, Conn.drop, hr]
          · rfl
        · rename_i hr
          obtain ⟨⟨sh, cs⟩, en⟩ := n
          dsimp only at hx ⊢
          congr 2
          funext c
          split
          · rename_i e; subst e; simp [hx, Conn.drop, hr]
          · rfl
      · rename_i hx
        obtain ⟨⟨sh, cs⟩, en⟩ := n
        dsimp only at hx ⊢
        congr 2
        funext c
        split
        · rename_i e; subst e; simp [hx]
        · rfl
    show Net.run env p (n.step env p (.cancel d)) (ds.map .cancel) = _
    rw [h1, ih]
    dsimp only
    congr 2
    funext c
    by_cases e : c = d
    · subst e
      simp only [if_true, List.mem_cons, true_or]
      split
      · cases n.sys.conns c <;> simp [Conn.drop_drop]
      · rfl
    · simp only [e, if_false, List.mem_cons, false_or]

theorem setConn_over (cs : Nat → Option Conn) (c : Nat) (x y : Conn) : setConn (setConn cs c x) c y = setConn cs c y := by
  funext d
  unfold setConn
  by_cases e : d = c <;> simp [e]

/-- Accepting a connection: it appears, then what it has said so far arrives. -/
theorem run_accept {σ} (env : Env σ) (p : Profile) (n : Net σ) (c : Nat) (bs : Bytes) (fin : Option ErrKind)
    (h1 : n.sys.conns c = none) (h2 : n.ended c = none) :
    n.run env p (.connect c :: .arrive c bs :: (fin.map (.hangup c)).toList) = n.accept c bs fin := by
  obtain ⟨⟨sh, cs⟩, en⟩ := n
  dsimp only at h1 h2
  have e1 : Net.step env p ⟨⟨sh, cs⟩, en⟩ (.connect c) = ⟨⟨sh, setConn cs c (Conn.new ⟨[], .unexpectedEof⟩)⟩, en⟩ := by
    simp only [Net.step, Sys.step, h1]
  have e2 : Net.step env p ⟨⟨sh, setConn cs c (Conn.new ⟨[], .unexpectedEof⟩)⟩, en⟩ (.arrive c bs)
      = ⟨⟨sh, setConn cs c (Conn.new ⟨bs, .unexpectedEof⟩)⟩, en⟩ := by
    simp only [Net.step, setConn, if_true, h2, Conn.new, List.nil_append]
    have := setConn_over cs c (Conn.new ⟨[], .unexpectedEof⟩) (Conn.new ⟨bs, .unexpectedEof⟩)
    simp only [Conn.new] at this
    rw [this]
  have e3 : (fun c' => if c' = c then none else en c') = en := by
    funext d
    by_cases e : d = c <;> simp [e, h2]
  unfold Net.run
  rw [List.foldl_cons, e1, List.foldl_cons, e2]
  cases fin with
  | none => simp [Net.accept, e3]
  | some e =>
    simp only [Option.map_some, Option.toList_some, List.foldl_cons, List.foldl_nil, Net.step, setConn, if_true, h2, Net.accept,
      Conn.new, Option.getD_some]
    have := setConn_over cs c (Conn.new ⟨bs, .unexpectedEof⟩) (Conn.new ⟨bs, e⟩)
    simp only [Conn.new] at this
    rw [this]

theorem PInv.net_step {σ} {env : Env σ} {p : Profile} {s : Proc σ} (h : PInv s) (D : List Nat)
    (hD : ∀ c, s.net.sys.conns c ≠ none → c ∈ D) (e : ProcEvent σ) :
    ∃ ns, (s.step env p e).net = s.net.run env p ns ∧ ns.filterMap work = (procWork e).toList := by
  cases e with
  | serve k b => refine ⟨[], ?_, rfl⟩; simp only [Proc.step]; split <;> rfl
  | dial k c => refine ⟨[], ?_, rfl⟩; simp only [Proc.step]; split <;> rfl
  | acceptErr k => exact ⟨[], rfl, rfl⟩
  | dropServe k => refine ⟨[], ?_, rfl⟩; simp only [Proc.step]; split <;> rfl
  | acceptOk k =>
    simp only [Proc.step]
    split
    · rename_i c q hk
      split
      · rename_i bs e hw
        have hn : s.net.sys.conns c = none := Classical.byContradiction fun hn => by
          rw [(h.conn c).mp hn] at hw; simp at hw
        refine ⟨_, (run_accept env p s.net c bs e hn (h.fresh c hn)).symm, ?_⟩
        cases e <;> rfl
      · exact ⟨[], rfl, rfl⟩
    · exact ⟨[], rfl, rfl⟩
  | shutdown =>
    refine ⟨D.map .cancel, ?_, ?_⟩
    · rw [run_cancels]
      simp only [Proc.step]
      congr 2
      funext c
      split
      · rfl
      · rename_i hc
        have : s.net.sys.conns c = none := Classical.byContradiction fun hn => hc (hD c hn)
        simp [this]
    · rw [List.filterMap_map]
      exact List.filterMap_eq_nil_iff.mpr fun _ _ => rfl
  | arrive c bs =>
    simp only [Proc.step]
    split
    · exact ⟨[], rfl, rfl⟩
    · exact ⟨[.arrive c bs], rfl, rfl⟩
    · exact ⟨[], rfl, rfl⟩
  | hangup c er =>
    simp only [Proc.step]
    split
    · exact ⟨[], rfl, rfl⟩
    · exact ⟨[.hangup c er], rfl, rfl⟩
    · exact ⟨[], rfl, rfl⟩
  | iterate c w => exact ⟨[.iterate c w], rfl, rfl⟩
  | cancel c => exact ⟨[.cancel c], rfl, rfl⟩
  | addDevice d => exact ⟨[.addDevice d], rfl, rfl⟩
  | removeDevice id => exact ⟨[.removeDevice id], rfl, rfl⟩
  | user f crash => exact ⟨[.user f crash], rfl, rfl⟩

/-- Only finitely many connections. -/
theorem proc_finite {σ} (env : Env σ) (p : Profile) {s : Proc σ} (h : PInv s) (D : List Nat)
    (hD : ∀ c, s.net.sys.conns c ≠ none → c ∈ D) (e : ProcEvent σ) :
    ∃ D' : List Nat, ∀ c, (s.step env p e).net.sys.conns c ≠ none → c ∈ D' := by
  have inner : ∀ e' : NetEvent σ, (∀ c, e' ≠ .connect c) → ∀ c, (s.net.step env p e').sys.conns c ≠ none → c ∈ D :=
    fun e' he c hc => hD c (mt (net_step_conns env p s.net e' he c).1.mpr hc)
  cases e with
  | serve k b => refine ⟨D, ?_⟩; simp only [Proc.step]; split <;> exact hD
  | dial k c => refine ⟨D, ?_⟩; simp only [Proc.step]; split <;> exact hD
  | acceptErr k => exact ⟨D, hD⟩
  | dropServe k => refine ⟨D, ?_⟩; simp only [Proc.step]; split <;> exact hD
  | acceptOk k =>
    simp only [Proc.step]
    split
    · rename_i c q hk
      split
      · refine ⟨c :: D, fun d hd => ?_⟩
        by_cases e : d = c
        · simp [e]
        · simp only [Net.accept, setConn, e, if_false] at hd
          exact List.mem_cons_of_mem _ (hD d hd)
      · exact ⟨D, hD⟩
    · exact ⟨D, hD⟩
  | shutdown =>
    refine ⟨D, fun c hc => hD c ?_⟩
    simp only [Proc.step, Ne, Option.map_eq_none_iff] at hc
    exact hc
  | arrive c bs =>
    simp only [Proc.step]
    split
    · exact ⟨D, hD⟩
    · exact ⟨D, inner _ (by simp)⟩
    · exact ⟨D, hD⟩
  | hangup c er =>
    simp only [Proc.step]
    split
    · exact ⟨D, hD⟩
    · exact ⟨D, inner _ (by simp)⟩
    · exact ⟨D, hD⟩
  | iterate c w => exact ⟨D, inner _ (by simp)⟩
  | cancel c => exact ⟨D, inner _ (by simp)⟩
  | addDevice d => exact ⟨D, inner _ (by simp)⟩
  | removeDevice id => exact ⟨D, inner _ (by simp)⟩
  | user f => exact ⟨D, inner _ (by simp)⟩

theorem PInv.net_run {σ} {env : Env σ} {p : Profile} (es : List (ProcEvent σ)) {s : Proc σ} (h : PInv s) (D : List Nat)
    (hD : ∀ c, s.net.sys.conns c ≠ none → c ∈ D) :
    ∃ ns, (s.run env p es).net = s.net.run env p ns ∧ ns.filterMap work = es.filterMap procWork := by
  induction es generalizing s D with
  | nil => exact ⟨[], rfl, rfl⟩
  | cons e es ih =>
    obtain ⟨n1, h1, h2⟩ := h.net_step D hD e
    obtain ⟨D', hD'⟩ := proc_finite env p h D hD e
    obtain ⟨n2, h3, h4⟩ := ih (h.step e) D' hD'
    refine ⟨n1 ++ n2, ?_, ?_⟩
    · show ((s.step env p e).run env p es).net = _
      rw [h3, h1, Net.run, Net.run, Net.run, List.foldl_append]
    · rw [List.filterMap_append, h2, h4]
      cases hw : procWork e <;> simp [hw]

theorem proc_append {σ} (env : Env σ) (p : Profile) (s : Proc σ) (es es' : List (ProcEvent σ)) :
    s.run env p (es ++ es') = (s.run env p es).run env p es' := List.foldl_append ..

/-! ## Listening -/

theorem calls_step {σ} (env : Env σ) (p : Profile) (s : Proc σ) (k : Nat) (e : ProcEvent σ) (q : List Nat)
    (h : s.calls k = some (.listening q)) (h1 : e ≠ .dropServe k) (h2 : e ≠ .shutdown) :
    ∃ q', (s.step env p e).calls k = some (.listening q') := by
  cases e with
  | shutdown => exact absurd rfl h2
  | serve k' b =>
    simp only [Proc.step]
    split
    · rename_i hn
      have : k ≠ k' := by rintro rfl; rw [h] at hn; simp at hn
      exact ⟨q, (upd_ne _ _ this).trans h⟩
    · exact ⟨q, h⟩
  | dial k' c =>
    simp only [Proc.step]
    split
    · by_cases e : k = k'
      · subst e; exact ⟨_, upd_self _ _ _⟩
      · exact ⟨q, (upd_ne _ _ e).trans h⟩
    · exact ⟨q, h⟩
    · exact ⟨q, h⟩
  | acceptOk k' =>
    simp only [Proc.step]
    split
    · split
      · by_cases e : k = k'
        · subst e; exact ⟨_, upd_self _ _ _⟩
        · exact ⟨q, (upd_ne _ _ e).trans h⟩
      · exact ⟨q, h⟩
    · exact ⟨q, h⟩
  | acceptErr k' => exact ⟨q, h⟩
  | dropServe k' =>
    have : k ≠ k' := by rintro rfl; exact h1 rfl
    simp only [Proc.step]
    split
    · exact ⟨q, (upd_ne _ _ this).trans h⟩
    · exact ⟨q, h⟩
  | arrive c bs => simp only [Proc.step]; split <;> exact ⟨q, h⟩
  | hangup c er => simp only [Proc.step]; split <;> exact ⟨q, h⟩
  | iterate | cancel | addDevice | removeDevice | user => exact ⟨q, h⟩

theorem calls_run {σ} (env : Env σ) (p : Profile) (s : Proc σ) (k : Nat) (es : List (ProcEvent σ)) (q : List Nat)
    (h : s.calls k = some (.listening q)) (h1 : .dropServe k ∉ es) (h2 : .shutdown ∉ es) :
    ∃ q', (s.run env p es).calls k = some (.listening q') := by
  induction es generalizing s q with
  | nil => exact ⟨q, h⟩
  | cons e es ih =>
    obtain ⟨q', h'⟩ := calls_step env p s k e q h (fun e' => h1 (by simp [e'])) (fun e' => h2 (by simp [e']))
    exact ih _ q' h' (fun hm => h1 (List.mem_cons_of_mem _ hm)) (fun hm => h2 (List.mem_cons_of_mem _ hm))

/-- Where a call that is listening comes from. -/
theorem calls_back {σ} (env : Env σ) (p : Profile) (s : Proc σ) (k : Nat) (e : ProcEvent σ) :
    (∀ q, (s.step env p e).calls k = some (.listening q) →
      (s.calls k = none ∧ e = .serve k true) ∨ ((∃ q', s.calls k = some (.listening q')) ∧ e ≠ .dropServe k ∧ e ≠ .shutdown)) ∧
    ((s.step env p e).calls k = none ↔ s.calls k = none ∧ ∀ b, e ≠ .serve k b) := by
  have same : ∀ s' : Proc σ, s'.calls = s.calls → e ≠ .dropServe k → e ≠ .shutdown → (∀ b, e ≠ .serve k b) →
      (∀ q, s'.calls k = some (.listening q) → (s.calls k = none ∧ e = .serve k true) ∨
        ((∃ q', s.calls k = some (.listening q')) ∧ e ≠ .dropServe k ∧ e ≠ .shutdown)) ∧
      (s'.calls k = none ↔ s.calls k = none ∧ ∀ b, e ≠ .serve k b) := by
    intro s' h1 h2 h3 h4
    rw [h1]
    exact ⟨fun q hq => .inr ⟨⟨q, hq⟩, h2, h3⟩, fun h => ⟨h, h4⟩, fun h => h.1⟩
  have other : ∀ (s' : Proc σ) k' v, s'.calls = upd s.calls k' v → k ≠ k' → e ≠ .dropServe k → e ≠ .shutdown →
      (∀ b, e ≠ .serve k b) →
      (∀ q, s'.calls k = some (.listening q) → (s.calls k = none ∧ e = .serve k true) ∨
        ((∃ q', s.calls k = some (.listening q')) ∧ e ≠ .dropServe k ∧ e ≠ .shutdown)) ∧
      (s'.calls k = none ↔ s.calls k = none ∧ ∀ b, e ≠ .serve k b) := by
    intro s' k' v h1 hne h2 h3 h4
    rw [h1, upd_ne _ _ hne]
    exact ⟨fun q hq => .inr ⟨⟨q, hq⟩, h2, h3⟩, fun h => ⟨h, h4⟩, fun h => h.1⟩
  cases e with
  | serve k' b =>
    by_cases ek : k = k'
    · subst ek
      simp only [Proc.step]
      cases hk : s.calls k with
      | none =>
        dsimp only
        rw [upd_self]
        cases b <;> simp
      | some a =>
        dsimp only
        rw [hk]
        simp only [Option.some.injEq, reduceCtorEq, false_and, false_or, iff_false, ne_eq, not_false_eq_true, and_true]
        exact fun q h => ⟨q, h⟩
    · simp only [Proc.step]
      split
      · exact other _ k' _ rfl ek (by simp) (by simp) (by intro b h; simp only [ProcEvent.serve.injEq] at h; exact ek h.1.symm)
      · exact same _ rfl (by simp) (by simp) (by intro b h; simp only [ProcEvent.serve.injEq] at h; exact ek h.1.symm)
  | dial k' c =>
    simp only [Proc.step]
    split
    · rename_i q hq hf
      by_cases ek : k = k'
      · subst ek; simp [upd_self, hq]
      · exact other _ k' _ rfl ek (by simp) (by simp) (by simp)
    · exact same _ rfl (by simp) (by simp) (by simp)
    · exact same _ rfl (by simp) (by simp) (by simp)
  | acceptOk k' =>
    simp only [Proc.step]
    split
    · rename_i c q hq
      split
      · by_cases ek : k = k'
        · subst ek; simp [upd_self, hq]
        · exact other _ k' _ rfl ek (by simp) (by simp) (by simp)
      · exact same _ rfl (by simp) (by simp) (by simp)
    · exact same _ rfl (by simp) (by simp) (by simp)
  | acceptErr k' => exact same _ rfl (by simp) (by simp) (by simp)
  | dropServe k' =>
    simp only [Proc.step]
    by_cases ek : k = k'
    · subst ek
      split
      · rename_i q hq
        simp [upd_self, hq]
      · rename_i hq
        refine ⟨fun q h => absurd h (hq q), fun h => ⟨h, by simp⟩, fun h => h.1⟩
    · have hne : ProcEvent.dropServe (σ := σ) k' ≠ .dropServe k := fun h => by
        simp only [ProcEvent.dropServe.injEq] at h; exact ek h.symm
      split
      · exact other _ k' _ rfl ek hne (by simp) (by simp)
      · exact same _ rfl hne (by simp) (by simp)
  | shutdown =>
    simp only [Proc.step]
    cases s.calls k with
    | none => simp
    | some a => cases a <;> simp
  | arrive c bs => simp only [Proc.step]; split <;> exact same _ rfl (by simp) (by simp) (by simp)
  | hangup c er => simp only [Proc.step]; split <;> exact same _ rfl (by simp) (by simp) (by simp)
  | iterate c w => exact same _ rfl (by simp) (by simp) (by simp)
  | cancel c => exact same _ rfl (by simp) (by simp) (by simp)
  | addDevice d => exact same _ rfl (by simp) (by simp) (by simp)
  | removeDevice id => exact same _ rfl (by simp) (by simp) (by simp)
  | user f => exact same _ rfl (by simp) (by simp) (by simp)

theorem open_cons {σ} (k : Nat) (e : ProcEvent σ) (es : List (ProcEvent σ)) :
    Open k (e :: es) ↔ (e = .serve k true ∧ .dropServe k ∉ es ∧ .shutdown ∉ es) ∨ ((∀ b, e ≠ .serve k b) ∧ Open k es) := by
  constructor
  · rintro ⟨pre, post, h, h1, h2, h3⟩
    cases pre with
    | nil =>
      simp only [List.nil_append, List.cons.injEq] at h
      obtain ⟨rfl, rfl⟩ := h
      exact .inl ⟨rfl, h2, h3⟩
    | cons a pre =>
      simp only [List.cons_append, List.cons.injEq] at h
      obtain ⟨rfl, rfl⟩ := h
      exact .inr ⟨fun b e' => h1 b (by simp [e']), pre, post, rfl, fun b hb => h1 b (List.mem_cons_of_mem _ hb), h2, h3⟩
  · rintro (⟨rfl, h2, h3⟩ | ⟨h1, pre, post, rfl, h2, h3, h4⟩)
    · exact ⟨[], es, rfl, by simp, h2, h3⟩
    · refine ⟨e :: pre, post, rfl, fun b hb => ?_, h3, h4⟩
      rcases List.mem_cons.mp hb with hb | hb
      · exact h1 b hb.symm
      · exact h2 b hb

theorem open_run {σ} (env : Env σ) (p : Profile) (k : Nat) (es : List (ProcEvent σ)) (s : Proc σ) :
    (∃ q, (s.run env p es).calls k = some (.listening q)) ↔
      ((∃ q, s.calls k = some (.listening q)) ∧ .dropServe k ∉ es ∧ .shutdown ∉ es) ∨ (s.calls k = none ∧ Open k es) := by
  induction es generalizing s with
  | nil =>
    constructor
    · intro h; exact .inl ⟨h, by simp, by simp⟩
    · rintro (h | ⟨_, pre, post, h, _⟩)
      · exact h.1
      · simp at h
  | cons e es ih =>
    have hL : (∃ q, (s.step env p e).calls k = some (.listening q)) ↔
        (s.calls k = none ∧ e = .serve k true) ∨ ((∃ q, s.calls k = some (.listening q)) ∧ e ≠ .dropServe k ∧ e ≠ .shutdown) := by
      constructor
      · rintro ⟨q, hq⟩; exact (calls_back env p s k e).1 q hq
      · rintro (⟨hn, rfl⟩ | ⟨⟨q, hq⟩, h1, h2⟩)
        · exact ⟨[], by simp [Proc.step, hn, upd_self]⟩
        · exact calls_step env p s k e q hq h1 h2
    have hN := (calls_back env p s k e).2
    show (∃ q, ((s.step env p e).run env p es).calls k = some (.listening q)) ↔ _
    rw [ih, hL, hN, open_cons]
    have e1 : (.dropServe k ∉ e :: es) ↔ e ≠ .dropServe k ∧ .dropServe k ∉ es := by
      rw [List.mem_cons, not_or]; exact and_congr_left fun _ => ⟨Ne.symm, Ne.symm⟩
    have e2 : (.shutdown ∉ e :: es) ↔ e ≠ .shutdown ∧ .shutdown ∉ es := by
      rw [List.mem_cons, not_or]; exact and_congr_left fun _ => ⟨Ne.symm, Ne.symm⟩
    rw [e1, e2]
    constructor
    · rintro (⟨⟨hn, he⟩ | ⟨hl, h1, h2⟩, h3, h4⟩ | ⟨⟨hn, hb⟩, ho⟩)
      · exact .inr ⟨hn, .inl ⟨he, h3, h4⟩⟩
      · exact .inl ⟨hl, ⟨h1, h3⟩, h2, h4⟩
      · exact .inr ⟨hn, .inr ⟨hb, ho⟩⟩
    · rintro (⟨hl, ⟨h1, h3⟩, h2, h4⟩ | ⟨hn, ⟨he, h3, h4⟩ | ⟨hb, ho⟩⟩)
      · exact .inl ⟨.inr ⟨hl, h1, h2⟩, h3, h4⟩
      · exact .inl ⟨.inl ⟨hn, he⟩, h3, h4⟩
      · exact .inr ⟨⟨hn, hb⟩, ho⟩

/-! ## Clients -/

/-- What becomes of a client in one step. -/
inductive Moves {σ} (c : Nat) : ProcEvent σ → Dialled → Dialled → Prop
  | stay (e d) (h1 : ∀ k, e = .dial k c → d ≠ .unknown) (h2 : ∀ bs b, e = .arrive c bs → d ≠ .waiting b none)
      (h3 : ∀ er b, e = .hangup c er → d ≠ .waiting b none) : Moves c e d d
  | dial (k d) (h : d = .waiting [] none ∨ d = .refused) : Moves c (.dial k c) .unknown d
  | accept (k b e) : Moves c (.acceptOk k) (.waiting b e) .accepted
  | close (ev b e) (h : (∃ k, ev = .dropServe k) ∨ ev = .shutdown) : Moves c ev (.waiting b e) .refused
  | arrive (bs b) : Moves c (.arrive c bs) (.waiting b none) (.waiting (b ++ bs) none)
  | hangup (er b) : Moves c (.hangup c er) (.waiting b none) (.waiting b (some er))

theorem front_step {σ} (env : Env σ) (p : Profile) {s : Proc σ} (hI : PInv s) (c : Nat) (e : ProcEvent σ) :
    Moves c e (s.front c) ((s.step env p e).front c) := by
  cases e with
  | serve k b =>
    simp only [Proc.step]
    split <;> exact .stay _ _ (by simp) (by simp) (by simp)
  | dial k d =>
    simp only [Proc.step]
    by_cases e : c = d
    · subst e
      split
      · rename_i hu
        dsimp only
        rw [upd_self, hu]; exact .dial k _ (.inl rfl)
      · rename_i hu _
        dsimp only
        rw [upd_self, hu]; exact .dial k _ (.inr rfl)
      · rename_i h1 h2
        exact .stay _ _ (fun k' _ h => by simp_all) (by simp) (by simp)
    · split
      all_goals
        try dsimp only
        try rw [upd_ne _ _ e]
        exact .stay _ _ (fun k' h => by simp only [ProcEvent.dial.injEq] at h; exact absurd h.2.symm e) (by simp) (by simp)
  | acceptOk k =>
    simp only [Proc.step]
    split
    · rename_i d q hk
      split
      · rename_i bs er hw
        by_cases e : c = d
        · subst e
          dsimp only
          rw [upd_self, hw]; exact .accept k _ _
        · dsimp only
          rw [upd_ne _ _ e]
          exact .stay _ _ (by simp) (by simp) (by simp)
      · exact .stay _ _ (by simp) (by simp) (by simp)
    · exact .stay _ _ (by simp) (by simp) (by simp)
  | acceptErr k => exact .stay _ _ (by simp) (by simp) (by simp)
  | dropServe k =>
    simp only [Proc.step]
    split
    · rename_i q hk
      dsimp only
      split
      · rename_i hc
        obtain ⟨b, e, hw⟩ := hI.queued k q hk c hc
        rw [hw]; exact .close _ _ _ (.inl ⟨k, rfl⟩)
      · exact .stay _ _ (by simp) (by simp) (by simp)
    · exact .stay _ _ (by simp) (by simp) (by simp)
  | shutdown =>
    simp only [Proc.step]
    cases hf : s.front c with
    | waiting b e => exact .close _ _ _ (.inr rfl)
    | _ => exact .stay _ _ (by simp) (by simp) (by simp)
  | arrive d bs =>
    simp only [Proc.step]
    by_cases e : c = d
    · subst e
      split
      · rename_i b hw
        dsimp only
        rw [upd_self, hw]; exact .arrive _ _
      · rename_i hw
        dsimp only
        rw [hw]
        exact .stay _ _ (by simp) (by simp) (by simp)
      · rename_i h1 h2
        exact .stay _ _ (by simp) (fun _ b _ h => h1 b h) (by simp)
    · split
      all_goals
        try dsimp only
        try rw [upd_ne _ _ e]
        exact .stay _ _ (by simp) (fun _ b h => by simp only [ProcEvent.arrive.injEq] at h; exact absurd h.1.symm e) (by simp)
  | hangup d er =>
    simp only [Proc.step]
    by_cases e : c = d
    · subst e
      split
      · rename_i b hw
        dsimp only
        rw [upd_self, hw]; exact .hangup _ _
      · rename_i hw
        dsimp only
        rw [hw]
        exact .stay _ _ (by simp) (by simp) (by simp)
      · rename_i h1 h2
        exact .stay _ _ (by simp) (by simp) (fun _ b _ h => h1 b h)
    · split
      all_goals
        try dsimp only
        try rw [upd_ne _ _ e]
        exact .stay _ _ (by simp) (by simp) (fun _ b h => by simp only [ProcEvent.hangup.injEq] at h; exact absurd h.1.symm e)
  | iterate | cancel | addDevice | removeDevice | user => exact .stay _ _ (by simp) (by simp) (by simp)

theorem front_accepted {σ} (env : Env σ) (p : Profile) (es : List (ProcEvent σ)) {s : Proc σ} (hI : PInv s) (c : Nat)
    (h : s.front c = .accepted) : (s.run env p es).front c = .accepted := by
  induction es generalizing s with
  | nil => exact h
  | cons e es ih =>
    refine ih (hI.step e) ?_
    have := front_step env p hI c e
    rw [h] at this
    generalize (s.step env p e).front c = x at this ⊢
    cases this; rfl

/-- What a client that is waiting has said. -/
theorem says_waiting {σ} (env : Env σ) (p : Profile) (es : List (ProcEvent σ)) {s : Proc σ} (hI : PInv s) (c : Nat)
    (b b' : Bytes) (e e' : Option ErrKind) (h : s.front c = .waiting b' e') (h' : (s.run env p es).front c = .waiting b e) :
    (b, e) = match e' with
      | none => (b' ++ (says c es).1, (says c es).2)
      | some er => (b', some er) := by
  induction es generalizing s b' e' with
  | nil =>
    have : Dialled.waiting b' e' = .waiting b e := h.symm.trans h'
    simp only [Dialled.waiting.injEq] at this
    obtain ⟨rfl, rfl⟩ := this
    cases e' <;> simp [says]
  | cons ev es ih =>
    have hm := front_step env p hI c ev
    have key := ih (s := s.step env p ev) (hI.step ev)
    have gone : ∀ d, (s.step env p ev).front c = d → (d = .accepted ∨ d = .refused) → False := by
      intro d hd hor
      rcases hor with rfl | rfl
      · have := front_accepted env p es (hI.step ev) c hd
        have h'' : ((s.step env p ev).run env p es).front c = .waiting b e := h'
        rw [this] at h''; simp at h''
      · have : ((s.step env p ev).run env p es).front c = .refused := by
          clear ih key h' hm
          have hI' := hI.step (env := env) (p := p) ev
          generalize s.step env p ev = s at hd hI' ⊢
          clear hI
          induction es generalizing s with
          | nil => exact hd
          | cons e es ih =>
            refine ih _ ?_ (hI'.step e)
            have := front_step env p hI' c e
            rw [hd] at this
            generalize (s.step env p e).front c = x at this ⊢
            cases this; rfl
        have h'' : ((s.step env p ev).run env p es).front c = .waiting b e := h'
        rw [this] at h''; simp at h''
    rw [h] at hm
    generalize hx : (s.step env p ev).front c = x at hm
    cases hm with
    | stay _ _ h1 h2 h3 =>
      rw [key b' e' hx h']
      cases e' with
      | some er => rfl
      | none =>
        have : says c (ev :: es) = says c es := by
          cases ev with
          | arrive d bs =>
            have : d ≠ c := by rintro rfl; exact h2 bs b' rfl rfl
            simp [says, this]
          | hangup d er =>
            have : d ≠ c := by rintro rfl; exact h3 er b' rfl rfl
            simp [says, this]
          | _ => rfl
        rw [this]
    | accept k => exact (gone _ hx (.inl rfl)).elim
    | close _ _ _ _ => exact (gone _ hx (.inr rfl)).elim
    | arrive bs =>
      rw [key _ none hx h']
      simp [says]
    | hangup er =>
      rw [key _ (some er) hx h']
      simp [says]

theorem says_unknown {σ} (env : Env σ) (p : Profile) (es : List (ProcEvent σ)) {s : Proc σ} (hI : PInv s) (c : Nat)
    (b : Bytes) (e : Option ErrKind) (h : s.front c = .unknown) (h' : (s.run env p es).front c = .waiting b e) :
    ∃ pre k post, es = pre ++ .dial k c :: post ∧ c ∉ dialled pre ∧ (b, e) = says c post := by
  induction es generalizing s with
  | nil =>
    have : Dialled.unknown = .waiting b e := h.symm.trans h'
    simp at this
  | cons ev es ih =>
    have hm := front_step env p hI c ev
    rw [h] at hm
    generalize hx : (s.step env p ev).front c = x at hm
    cases hm with
    | stay _ _ h1 h2 h3 =>
      obtain ⟨pre, k, post, rfl, hd, hs⟩ := ih (hI.step ev) hx h'
      refine ⟨ev :: pre, k, post, rfl, fun hm => ?_, hs⟩
      cases ev with
      | dial k' c' =>
        rcases List.mem_cons.mp hm with rfl | hm
        · exact h1 k' rfl rfl
        · exact hd hm
      | _ => exact hd hm
    | dial k _ hd =>
      rcases hd with rfl | rfl
      · have := says_waiting env p es (hI.step _) c b [] e none hx h'
        exact ⟨[], k, es, rfl, by simp [dialled], this.trans (by simp)⟩
      · exfalso
        have gone : ∀ (es : List (ProcEvent σ)) (s : Proc σ), PInv s → s.front c = .refused → (s.run env p es).front c = .refused := by
          intro es
          induction es with
          | nil => intro s _ hd; exact hd
          | cons e es ih =>
            intro s hI hd
            refine ih _ (hI.step e) ?_
            have := front_step env p hI c e
            rw [hd] at this
            generalize (s.step env p e).front c = x at this ⊢
            cases this; rfl
        have h'' : ((s.step env p (.dial k c)).run env p es).front c = .waiting b e := h'
        rw [gone es _ (hI.step _) hx] at h''; simp at h''

/-- Nobody is queued but by connecting. -/
theorem listen_queue_step {σ} (env : Env σ) (p : Profile) (s : Proc σ) (c k : Nat) (e : ProcEvent σ)
    (he : s.front c = .unknown → e ≠ .dial k c) (h : ∀ q, s.calls k = some (.listening q) → c ∉ q) :
    ∀ q, (s.step env p e).calls k = some (.listening q) → c ∉ q := by
  intro q hq
  cases e with
  | serve k' b =>
    simp only [Proc.step] at hq
    split at hq
    · by_cases e : k = k'
      · subst e
        dsimp only at hq; rw [upd_self] at hq
        cases b <;> simp at hq
        subst hq; simp
      · dsimp only at hq; rw [upd_ne _ _ e] at hq; exact h q hq
    · exact h q hq
  | dial k' d =>
    simp only [Proc.step] at hq
    split at hq
    · rename_i q0 h0 hu
      by_cases e : k = k'
      · subst e
        dsimp only at hq; rw [upd_self] at hq
        simp only [Option.some.injEq, Serving.listening.injEq] at hq
        subst hq
        have : d ≠ c := fun e => by subst e; exact he hu rfl
        simp [h _ h0, this.symm]
      · dsimp only at hq; rw [upd_ne _ _ e] at hq; exact h q hq
    · exact h q hq
    · exact h q hq
  | acceptOk k' =>
    simp only [Proc.step] at hq
    split at hq
    · rename_i d q0 h0
      split at hq
      · by_cases e : k = k'
        · subst e
          dsimp only at hq; rw [upd_self] at hq
          simp only [Option.some.injEq, Serving.listening.injEq] at hq
          subst hq
          exact fun hm => h _ h0 (List.mem_cons_of_mem _ hm)
        · dsimp only at hq; rw [upd_ne _ _ e] at hq; exact h q hq
      · exact h q hq
    · exact h q hq
  | acceptErr k' => exact h q hq
  | dropServe k' =>
    simp only [Proc.step] at hq
    split at hq
    · by_cases e : k = k'
      · subst e
        dsimp only at hq; rw [upd_self] at hq
        simp at hq
      · dsimp only at hq; rw [upd_ne _ _ e] at hq; exact h q hq
    · exact h q hq
  | shutdown =>
    simp only [Proc.step] at hq
    cases hk : s.calls k with
    | none => rw [hk] at hq; simp at hq
    | some a => rw [hk] at hq; cases a <;> simp at hq
  | arrive d bs =>
    simp only [Proc.step] at hq
    split at hq <;> exact h q hq
  | hangup d er =>
    simp only [Proc.step] at hq
    split at hq <;> exact h q hq
  | iterate d w => exact h q hq
  | cancel d => exact h q hq
  | addDevice d => exact h q hq
  | removeDevice id => exact h q hq
  | user f => exact h q hq

theorem listen_queue_from {σ} (env : Env σ) (p : Profile) (es : List (ProcEvent σ)) {s : Proc σ} (hI : PInv s) (c k k' : Nat)
    (h : s.front c = .unknown) (pre post : List (ProcEvent σ)) (hes : es = pre ++ .dial k' c :: post) (hd : c ∉ dialled pre)
    (q : List Nat) (hq : (s.run env p es).calls k = some (.listening q)) (hc : c ∈ q) : k' = k := by
  subst hes
  have hno : ∀ {s : Proc σ}, PInv s → s.front c = .unknown → ∀ q, s.calls k = some (.listening q) → c ∉ q := by
    intro s hI h q hq hm
    obtain ⟨b, e, hw⟩ := hI.queued k q hq c hm
    rw [h] at hw; simp at hw
  have stays : ∀ (es : List (ProcEvent σ)) (s : Proc σ), PInv s → s.front c ≠ .unknown →
      (∀ q, s.calls k = some (.listening q) → c ∉ q) → ∀ q, (s.run env p es).calls k = some (.listening q) → c ∉ q := by
    intro es
    induction es with
    | nil => intro s _ _ h; exact h
    | cons e es ih =>
      intro s hI hu h
      refine ih _ (hI.step e) ?_ (listen_queue_step env p s c k e (fun h => absurd h hu) h)
      have hm := front_step env p hI c e
      generalize (s.step env p e).front c = x at hm
      intro hx
      subst hx
      generalize s.front c = y at hm hu
      cases hm with
      | stay => exact hu rfl
      | dial _ _ h => rcases h with h | h <;> simp at h
  refine Classical.byContradiction fun hk => ?_
  induction pre generalizing s with
  | nil =>
    refine stays post (s.step env p (.dial k' c)) (hI.step _) ?_ ?_ q hq hc
    · have hm := front_step env p hI c (.dial k' c)
      rw [h] at hm
      generalize (s.step env p (.dial k' c)).front c = x at hm
      intro hx
      subst hx
      cases hm with
      | stay _ _ h1 => exact h1 k' rfl rfl
      | dial _ _ h => rcases h with h | h <;> simp at h
    · refine listen_queue_step env p s c k _ (fun _ e => ?_) (hno hI h)
      simp only [ProcEvent.dial.injEq] at e
      exact hk e.1
  | cons ev pre ih =>
    refine ih (hI.step ev) ?_ ?_ hq
    · have hm := front_step env p hI c ev
      rw [h] at hm
      generalize (s.step env p ev).front c = x at hm ⊢
      cases hm with
      | stay => rfl
      | dial k'' => exact absurd (List.mem_cons_self ..) hd
    · intro hm
      apply hd
      cases ev <;> first | exact hm | exact List.mem_cons_of_mem _ hm

/-- Connections are accepted in the order in which they came. -/
theorem fifo_run {σ} (env : Env σ) (p : Profile) (k : Nat) (es : List (ProcEvent σ)) {s : Proc σ} (hI : PInv s)
    (q : List Nat) (hk : s.calls k = some (.listening q)) (h1 : .dropServe k ∉ es) (h2 : .shutdown ∉ es)
    (hn : (dialled es).Nodup) (hu : ∀ c ∈ dialled es, s.front c = .unknown) :
    ∃ A q', q ++ dials k es = A ++ q' ∧ (s.run env p es).calls k = some (.listening q') ∧
      ∀ c ∈ A, (s.run env p es).front c = .accepted := by
  induction es generalizing s q with
  | nil => exact ⟨[], q, by simp [dials], hk, by simp⟩
  | cons e es ih =>
    have h1' : .dropServe k ∉ es := fun h => h1 (List.mem_cons_of_mem _ h)
    have h2' : .shutdown ∉ es := fun h => h2 (List.mem_cons_of_mem _ h)
    have sub : ∀ c ∈ dialled es, c ∈ dialled (e :: es) := by
      intro c hc
      cases e with
      | dial k' d => exact List.mem_cons_of_mem _ hc
      | _ => exact hc
    have hn' : (dialled es).Nodup := by
      cases e with
      | dial k' d => exact (List.nodup_cons.mp hn).2
      | _ => exact hn
    have hu' : ∀ c ∈ dialled es, (s.step env p e).front c = .unknown := by
      intro c hc
      have hm := front_step env p hI c e
      rw [hu c (sub c hc)] at hm
      generalize (s.step env p e).front c = x at hm ⊢
      cases hm with
      | stay => rfl
      | dial k' => exact absurd hc (List.nodup_cons.mp hn).1
    have plain : (s.step env p e).calls k = some (.listening q) → dials k (e :: es) = dials k es → _ := fun hc hd => by
      have := ih (hI.step e) q hc h1' h2' hn' hu'
      rw [← hd] at this
      exact this
    cases e with
    | shutdown => exact absurd (List.mem_cons_self ..) h2
    | serve k' b =>
      refine plain ?_ rfl
      simp only [Proc.step]
      split
      · rename_i hx
        have : k ≠ k' := by rintro rfl; rw [hk] at hx; simp at hx
        exact (upd_ne _ _ this).trans hk
      · exact hk
    | dial k' d =>
      have hun := hu d (by simp [dialled])
      by_cases ek : k' = k
      · subst ek
        have := ih (s := s.step env p (.dial k' d)) (hI.step _) (q ++ [d])
          (by simp only [Proc.step, hk, hun]; exact upd_self _ _ _) h1' h2' hn' hu'
        simp only [dials, if_true]
        simp only [List.append_assoc, List.singleton_append] at this
        exact this
      · refine plain ?_ (by simp [dials, ek])
        simp only [Proc.step]
        split
        · exact (upd_ne _ _ (Ne.symm ek)).trans hk
        · exact hk
        · exact hk
    | acceptOk k' =>
      by_cases ek : k' = k
      · subst ek
        cases q with
        | nil => exact plain (by simp only [Proc.step, hk]) rfl
        | cons c q =>
          obtain ⟨b, e, hw⟩ := hI.queued k' _ hk c (by simp)
          have hf : (s.step env p (.acceptOk k')).front c = .accepted := by
            simp only [Proc.step, hk, hw]; exact upd_self _ _ _
          obtain ⟨A, q', h3, h4, h5⟩ := ih (s := s.step env p (.acceptOk k')) (hI.step _) q
            (by simp only [Proc.step, hk, hw]; exact upd_self _ _ _) h1' h2' hn' hu'
          refine ⟨c :: A, q', by simp [dials, h3], h4, ?_⟩
          intro d hd
          rcases List.mem_cons.mp hd with rfl | hd
          · exact front_accepted env p es (hI.step _) _ hf
          · exact h5 d hd
      · refine plain ?_ rfl
        simp only [Proc.step]
        split
        · split
          · exact (upd_ne _ _ (Ne.symm ek)).trans hk
          · exact hk
        · exact hk
    | acceptErr k' => exact plain hk rfl
    | dropServe k' =>
      have ek : k ≠ k' := by rintro rfl; exact h1 (List.mem_cons_self ..)
      refine plain ?_ rfl
      simp only [Proc.step]
      split
      · exact (upd_ne _ _ ek).trans hk
      · exact hk
    | arrive c bs => refine plain ?_ rfl; simp only [Proc.step]; split <;> exact hk
    | hangup c er => refine plain ?_ rfl; simp only [Proc.step]; split <;> exact hk
    | iterate | cancel | addDevice | removeDevice | user => exact plain hk rfl

/-! ## A call that is dropped -/

/-- The same but for what comes through call `k`, which is dropped on the second side. -/
structure But {σ} (k : Nat) (s t : Proc σ) : Prop where
  net : s.net = t.net
  here : s.calls k ≠ none
  gone : t.calls k = some .dropped
  calls : ∀ k', k' ≠ k → s.calls k' = t.calls k'
  queue : ∀ q, s.calls k = some (.listening q) → ∀ c ∈ q, t.front c = .refused
  front : ∀ c, s.front c = t.front c ∨ (s.front c ≠ .unknown ∧ s.front c ≠ .accepted ∧ t.front c = .refused ∧
    ∀ k' q, k' ≠ k → s.calls k' = some (.listening q) → c ∉ q)

theorem But.step {σ} {env : Env σ} {p : Profile} {k : Nat} {s t : Proc σ} (hI : PInv s) (h : But k s t)
    (e : ProcEvent σ) (he : e ≠ .acceptOk k) : But k (s.step env p e) (t.step env p e) := by
  obtain ⟨n, cs, fs⟩ := s
  obtain ⟨n', ct, ft⟩ := t
  obtain ⟨hn, hh, hg, hc, hq, hf⟩ := h
  dsimp only at hn hh hg hc hq hf
  subst hn
  have inner : ∀ e' : NetEvent σ, But k ⟨n.step env p e', cs, fs⟩ ⟨n.step env p e', ct, ft⟩ := fun e' =>
    ⟨rfl, hh, hg, hc, hq, hf⟩
  have stay : But k ⟨n, cs, fs⟩ ⟨n, ct, ft⟩ := ⟨rfl, hh, hg, hc, hq, hf⟩
  cases e with
  | serve k' b =>
    by_cases ek : k' = k
    · subst ek
      simp only [Proc.step, hg]
      cases hk : cs k' with
      | none => exact absurd hk hh
      | some a => exact stay
    · simp only [Proc.step]
      rw [← hc k' ek]
      cases hk : cs k' with
      | some a => exact stay
      | none =>
        refine ⟨rfl, ?_, ?_, ?_, ?_, ?_⟩
        · dsimp only; rw [upd_ne _ _ (Ne.symm ek)]; exact hh
        · dsimp only; rw [upd_ne _ _ (Ne.symm ek)]; exact hg
        · intro k2 h2
          dsimp only
          by_cases e2 : k2 = k'
          · subst e2; rw [upd_self, upd_self]
          · rw [upd_ne _ _ e2, upd_ne _ _ e2]; exact hc k2 h2
        · intro q h2
          dsimp only at h2
          rw [upd_ne _ _ (Ne.symm ek)] at h2
          exact hq q h2
        · intro c
          rcases hf c with h1 | ⟨h1, h2, h3, h4⟩
          · exact .inl h1
          · refine .inr ⟨h1, h2, h3, fun k2 q hk2 hl => ?_⟩
            dsimp only at hl
            by_cases e2 : k2 = k'
            · subst e2; rw [upd_self] at hl
              cases b <;> simp at hl
              rw [hl]; simp
            · rw [upd_ne _ _ e2] at hl
              exact h4 k2 q hk2 hl
  | dial k' c =>
    by_cases hu : fs c = .unknown
    · have hut : ft c = .unknown := by
        rcases hf c with h1 | h1
        · rw [← h1]; exact hu
        · exact absurd hu h1.1
      have nq : ∀ k' q, cs k' = some (.listening q) → c ∉ q := fun k' q hk hm => by
        obtain ⟨b, e, hw⟩ := hI.queued k' q hk c hm
        dsimp only at hw
        rw [hu] at hw; simp at hw
      by_cases ek : k' = k
      · subst ek
        simp only [Proc.step, hg, hu, hut]
        have fresh : ∀ d, d ≠ c → ∀ x y, upd fs c x d = upd ft c y d ∨ (upd fs c x d ≠ .unknown ∧ upd fs c x d ≠ .accepted ∧
            upd ft c y d = .refused ∧ ∀ k2 q, k2 ≠ k' → cs k2 = some (.listening q) → d ∉ q) := by
          intro d hd x y
          rw [upd_ne _ _ hd, upd_ne _ _ hd]
          exact hf d
        cases hk : cs k' with
        | none => exact absurd hk hh
        | some a =>
          cases a with
          | listening q =>
            refine ⟨rfl, ?_, hg, ?_, ?_, ?_⟩
            · dsimp only; rw [upd_self]; simp
            · intro k2 h2
              dsimp only; rw [upd_ne _ _ h2]; exact hc k2 h2
            · intro q' hq' d hd
              dsimp only at hq' ⊢
              rw [upd_self] at hq'
              simp only [Option.some.injEq, Serving.listening.injEq] at hq'
              subst hq'
              by_cases ed : d = c
              · subst ed; exact upd_self _ _ _
              · rw [upd_ne _ _ ed]
                simp only [List.mem_append, List.mem_singleton, ed, or_false] at hd
                exact hq q hk d hd
            · intro d
              by_cases ed : d = c
              · subst ed
                refine .inr ⟨?_, ?_, upd_self _ _ _, fun k2 q' h2 hl => ?_⟩
                · dsimp only; rw [upd_self]; simp
                · dsimp only; rw [upd_self]; simp
                · dsimp only at hl; rw [upd_ne _ _ h2] at hl; exact nq k2 q' hl
              · rcases fresh d ed (.waiting [] none) .refused with h1 | ⟨h1, h2, h3, h4⟩
                · exact .inl h1
                · refine .inr ⟨h1, h2, h3, fun k2 q' hk2 hl => ?_⟩
                  dsimp only at hl; rw [upd_ne _ _ hk2] at hl; exact h4 k2 q' hk2 hl
          | panicked =>
            refine ⟨rfl, hh, hg, hc, fun q hl => by dsimp only at hl; rw [hk] at hl; simp at hl, fun d => ?_⟩
            by_cases ed : d = c
            · subst ed; exact .inl ((upd_self _ _ _).trans (upd_self _ _ _).symm)
            · exact fresh d ed _ _
          | dropped =>
            refine ⟨rfl, hh, hg, hc, fun q hl => by dsimp only at hl; rw [hk] at hl; simp at hl, fun d => ?_⟩
            by_cases ed : d = c
            · subst ed; exact .inl ((upd_self _ _ _).trans (upd_self _ _ _).symm)
            · exact fresh d ed _ _
      · simp only [Proc.step, hu, hut]
        rw [← hc k' ek]
        have refused : But k ⟨n, cs, upd fs c .refused⟩ ⟨n, ct, upd ft c .refused⟩ := by
          refine ⟨rfl, hh, hg, hc, fun q hl d hd => ?_, fun d => ?_⟩
          · have ed : d ≠ c := by rintro rfl; exact nq k q hl hd
            dsimp only; rw [upd_ne _ _ ed]; exact hq q hl d hd
          · by_cases ed : d = c
            · subst ed; exact .inl ((upd_self _ _ _).trans (upd_self _ _ _).symm)
            · dsimp only; rw [upd_ne _ _ ed, upd_ne _ _ ed]; exact hf d
        cases hk : cs k' with
        | none => exact refused
        | some a =>
          cases a with
          | panicked => exact refused
          | dropped => exact refused
          | listening q =>
            refine ⟨rfl, ?_, ?_, ?_, ?_, ?_⟩
            · dsimp only; rw [upd_ne _ _ (Ne.symm ek)]; exact hh
            · dsimp only; rw [upd_ne _ _ (Ne.symm ek)]; exact hg
            · intro k2 h2
              dsimp only
              by_cases e2 : k2 = k'
              · subst e2; rw [upd_self, upd_self]
              · rw [upd_ne _ _ e2, upd_ne _ _ e2]; exact hc k2 h2
            · intro q' hl d hd
              dsimp only at hl ⊢
              rw [upd_ne _ _ (Ne.symm ek)] at hl
              have ed : d ≠ c := by rintro rfl; exact nq k q' hl hd
              rw [upd_ne _ _ ed]; exact hq q' hl d hd
            · intro d
              by_cases ed : d = c
              · subst ed; exact .inl ((upd_self _ _ _).trans (upd_self _ _ _).symm)
              · dsimp only; rw [upd_ne _ _ ed, upd_ne _ _ ed]
                rcases hf d with h1 | ⟨h1, h2, h3, h4⟩
                · exact .inl h1
                · refine .inr ⟨h1, h2, h3, fun k2 q' hk2 hl => ?_⟩
                  by_cases e2 : k2 = k'
                  · subst e2; rw [upd_self] at hl
                    simp only [Option.some.injEq, Serving.listening.injEq] at hl
                    subst hl
                    have := h4 k2 q hk2 hk
                    simp [this, ed]
                  · rw [upd_ne _ _ e2] at hl
                    exact h4 k2 q' hk2 hl
    · have hut : ft c ≠ .unknown := by
        rcases hf c with h1 | h1
        · rw [← h1]; exact hu
        · rw [h1.2.2.1]; simp
      have same : ∀ (m : Net σ) cs fs, fs c ≠ .unknown → Proc.step env p ⟨m, cs, fs⟩ (.dial k' c) = ⟨m, cs, fs⟩ := by
        intro m cs fs h
        simp only [Proc.step]
        split
        · rename_i h1 _ _; exact absurd ‹fs c = .unknown› h
        · exact absurd ‹fs c = .unknown› h
        · rfl
      rw [same _ _ _ hu, same _ _ _ hut]
      exact stay
  | acceptOk k' =>
    have ek : k' ≠ k := by rintro rfl; exact he rfl
    simp only [Proc.step]
    rw [← hc k' ek]
    cases hk : cs k' with
    | none => exact stay
    | some a =>
      cases a with
      | panicked => exact stay
      | dropped => exact stay
      | listening q =>
        cases q with
        | nil => exact stay
        | cons c q =>
          obtain ⟨b, e, hw⟩ := hI.queued k' _ hk c (by simp)
          dsimp only at hw
          have hwt : ft c = .waiting b e := by
            rcases hf c with h1 | h1
            · rw [← h1]; exact hw
            · exact absurd (List.mem_cons_self ..) (h1.2.2.2 k' _ ek hk)
          simp only [hw, hwt]
          refine ⟨rfl, ?_, ?_, ?_, ?_, ?_⟩
          · dsimp only; rw [upd_ne _ _ (Ne.symm ek)]; exact hh
          · dsimp only; rw [upd_ne _ _ (Ne.symm ek)]; exact hg
          · intro k2 h2
            dsimp only
            by_cases e2 : k2 = k'
            · subst e2; rw [upd_self, upd_self]
            · rw [upd_ne _ _ e2, upd_ne _ _ e2]; exact hc k2 h2
          · intro q' hl d hd
            dsimp only at hl ⊢
            rw [upd_ne _ _ (Ne.symm ek)] at hl
            have ed : d ≠ c := by
              rintro rfl
              exact hI.apart k' k _ q' hk hl ek d (by simp) hd
            rw [upd_ne _ _ ed]; exact hq q' hl d hd
          · intro d
            by_cases ed : d = c
            · subst ed; exact .inl ((upd_self _ _ _).trans (upd_self _ _ _).symm)
            · dsimp only; rw [upd_ne _ _ ed, upd_ne _ _ ed]
              rcases hf d with h1 | ⟨h1, h2, h3, h4⟩
              · exact .inl h1
              · refine .inr ⟨h1, h2, h3, fun k2 q' hk2 hl => ?_⟩
                by_cases e2 : k2 = k'
                · subst e2; rw [upd_self] at hl
                  simp only [Option.some.injEq, Serving.listening.injEq] at hl
                  subst hl
                  exact fun hm => h4 k2 _ hk2 hk (List.mem_cons_of_mem _ hm)
                · rw [upd_ne _ _ e2] at hl
                  exact h4 k2 q' hk2 hl
  | acceptErr k' => exact stay
  | dropServe k' =>
    by_cases ek : k' = k
    · subst ek
      simp only [Proc.step, hg]
      cases hk : cs k' with
      | none => exact stay
      | some a =>
        cases a with
        | panicked => exact stay
        | dropped => exact stay
        | listening q =>
          refine ⟨rfl, by dsimp only; rw [upd_self]; simp, hg, ?_, ?_, ?_⟩
          · intro k2 h2; dsimp only; rw [upd_ne _ _ h2]; exact hc k2 h2
          · intro q' hl; dsimp only at hl; rw [upd_self] at hl; simp at hl
          · intro d
            dsimp only
            by_cases hd : d ∈ q
            · rw [if_pos hd]; exact .inl (hq q hk d hd).symm
            · rw [if_neg hd]
              rcases hf d with h1 | ⟨h1, h2, h3, h4⟩
              · exact .inl h1
              · refine .inr ⟨h1, h2, h3, fun k2 q' hk2 hl => ?_⟩
                rw [upd_ne _ _ hk2] at hl; exact h4 k2 q' hk2 hl
    · simp only [Proc.step]
      rw [← hc k' ek]
      cases hk : cs k' with
      | none => exact stay
      | some a =>
        cases a with
        | panicked => exact stay
        | dropped => exact stay
        | listening q =>
          refine ⟨rfl, ?_, ?_, ?_, ?_, ?_⟩
          · dsimp only; rw [upd_ne _ _ (Ne.symm ek)]; exact hh
          · dsimp only; rw [upd_ne _ _ (Ne.symm ek)]; exact hg
          · intro k2 h2
            dsimp only
            by_cases e2 : k2 = k'
            · subst e2; rw [upd_self, upd_self]
            · rw [upd_ne _ _ e2, upd_ne _ _ e2]; exact hc k2 h2
          · intro q' hl d hd
            dsimp only at hl ⊢
            rw [upd_ne _ _ (Ne.symm ek)] at hl
            split
            · rfl
            · exact hq q' hl d hd
          · intro d
            dsimp only
            by_cases hd : d ∈ q
            · rw [if_pos hd, if_pos hd]; exact .inl rfl
            · rw [if_neg hd, if_neg hd]
              rcases hf d with h1 | ⟨h1, h2, h3, h4⟩
              · exact .inl h1
              · refine .inr ⟨h1, h2, h3, fun k2 q' hk2 hl => ?_⟩
                by_cases e2 : k2 = k'
                · subst e2; rw [upd_self] at hl; simp at hl
                · rw [upd_ne _ _ e2] at hl; exact h4 k2 q' hk2 hl
  | shutdown =>
    simp only [Proc.step]
    refine ⟨rfl, ?_, ?_, ?_, ?_, ?_⟩
    · dsimp only
      cases hk : cs k with
      | none => exact absurd hk hh
      | some a => simp
    · dsimp only; rw [hg]; rfl
    · intro k2 h2; dsimp only; rw [hc k2 h2]
    · intro q hl
      dsimp only at hl
      exfalso
      cases hk : cs k with
      | none => exact hh hk
      | some a => rw [hk] at hl; cases a <;> simp at hl
    · intro d
      dsimp only
      rcases hf d with h1 | ⟨h1, h2, h3, h4⟩
      · exact .inl (by rw [h1])
      · refine .inl ?_
        rw [h3]
        cases hd : fs d with
        | unknown => exact absurd hd h1
        | accepted => exact absurd hd h2
        | waiting => rfl
        | refused => rfl
  | arrive c bs =>
    simp only [Proc.step]
    rcases hf c with h1 | ⟨h1, h2, h3, h4⟩
    · rw [← h1]
      cases hc' : fs c with
      | unknown => exact stay
      | refused => exact stay
      | accepted => exact inner _
      | waiting b e =>
        cases e with
        | some e => exact stay
        | none =>
          refine ⟨rfl, hh, hg, hc, fun q hl d hd => ?_, fun d => ?_⟩
          · have ed : d ≠ c := by
              rintro rfl
              have := hq q hl d hd
              rw [← h1, hc'] at this; simp at this
            dsimp only; rw [upd_ne _ _ ed]; exact hq q hl d hd
          · by_cases ed : d = c
            · subst ed; exact .inl ((upd_self _ _ _).trans (upd_self _ _ _).symm)
            · dsimp only; rw [upd_ne _ _ ed, upd_ne _ _ ed]; exact hf d
    · rw [h3]
      cases hc' : fs c with
      | unknown => exact stay
      | refused => exact stay
      | accepted => exact absurd hc' h2
      | waiting b e =>
        cases e with
        | some e => exact stay
        | none =>
          refine ⟨rfl, hh, hg, hc, hq, fun d => ?_⟩
          by_cases ed : d = c
          · subst ed
            refine .inr ⟨?_, ?_, h3, h4⟩ <;> dsimp only <;> rw [upd_self] <;> simp
          · dsimp only; rw [upd_ne _ _ ed]; exact hf d
  | hangup c er =>
    simp only [Proc.step]
    rcases hf c with h1 | ⟨h1, h2, h3, h4⟩
    · rw [← h1]
      cases hc' : fs c with
      | unknown => exact stay
      | refused => exact stay
      | accepted => exact inner _
      | waiting b e =>
        cases e with
        | some e => exact stay
        | none =>
          refine ⟨rfl, hh, hg, hc, fun q hl d hd => ?_, fun d => ?_⟩
          · have ed : d ≠ c := by
              rintro rfl
              have := hq q hl d hd
              rw [← h1, hc'] at this; simp at this
            dsimp only; rw [upd_ne _ _ ed]; exact hq q hl d hd
          · by_cases ed : d = c
            · subst ed; exact .inl ((upd_self _ _ _).trans (upd_self _ _ _).symm)
            · dsimp only; rw [upd_ne _ _ ed, upd_ne _ _ ed]; exact hf d
    · rw [h3]
      cases hc' : fs c with
      | unknown => exact stay
      | refused => exact stay
      | accepted => exact absurd hc' h2
      | waiting b e =>
        cases e with
        | some e => exact stay
        | none =>
          refine ⟨rfl, hh, hg, hc, hq, fun d => ?_⟩
          by_cases ed : d = c
          · subst ed
            refine .inr ⟨?_, ?_, h3, h4⟩ <;> dsimp only <;> rw [upd_self] <;> simp
          · dsimp only; rw [upd_ne _ _ ed]; exact hf d
  | iterate c w => exact inner _
  | cancel c => exact inner _
  | addDevice d => exact inner _
  | removeDevice id => exact inner _
  | user f => exact inner _

theorem But.run {σ} {env : Env σ} {p : Profile} {k : Nat} (es : List (ProcEvent σ)) {s t : Proc σ} (hI : PInv s)
    (h : But k s t) (he : .acceptOk k ∉ es) : But k (s.run env p es) (t.run env p es) := by
  induction es generalizing s t with
  | nil => exact h
  | cons e es ih =>
    exact ih (hI.step e) (h.step hI e (fun e' => he (by simp [e']))) (fun hm => he (List.mem_cons_of_mem _ hm))

/-- Dropping a call. -/
theorem But.drop {σ} (env : Env σ) (p : Profile) {k : Nat} {s : Proc σ} (hI : PInv s) (q : List Nat)
    (hk : s.calls k = some (.listening q)) : But k s (s.step env p (.dropServe k)) := by
  simp only [Proc.step, hk]
  refine ⟨rfl, by rw [hk]; simp, upd_self _ _ _, fun k' h => (upd_ne _ _ h).symm, ?_, ?_⟩
  · intro q' hq c hc
    rw [hk] at hq
    simp only [Option.some.injEq, Serving.listening.injEq] at hq
    subst hq
    exact if_pos hc
  · intro c
    dsimp only
    by_cases hc : c ∈ q
    · obtain ⟨b, e, hw⟩ := hI.queued k q hk c hc
      rw [if_pos hc, hw]
      refine .inr ⟨by simp, by simp, rfl, fun k' q' hne hl => hI.apart k k' q q' hk hl (Ne.symm hne) c hc⟩
    · rw [if_neg hc]; exact .inl rfl

end Usbip
