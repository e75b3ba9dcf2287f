import Verif.Lemmas.DriverSample
import Verif.Lemmas.Attended
/-!
# Executions to order

From a list of what happens (bytes arrive, the server handles a request, the application uses an object) an execution of a whole
process with a host; used to show that the hypotheses of theorems about such executions can be met.
-/

namespace Usbip
open Spec Samples

/-- What happens, with client 0. -/
inductive Play (τ : Type) where
  | arrive (bs : Bytes)
  | iterate
  | use (o : HandlerId) (v : τ)

def Play.event {τ} : Play τ → NetEvent (HandlerId → τ)
  | .arrive bs => .arrive 0 bs
  | .iterate => .iterate 0 .full
  | .use o v => .user (fun u => upd u o v)

/-- The bytes that arrive. -/
def Play.bytes {τ} : Play τ → Bytes
  | .arrive bs => bs
  | _ => []

def Spec.MachineExec.wait {τ} {code : Code τ} {env : Env (HandlerId → τ)} {p : Profile} {s : Machine code}
    (e : MachineExec code env p s) : MachineExec code env p s where
  state n := match n with | 0 => s | n + 1 => e.state n
  label n := match n with | 0 => none | n + 1 => e.label n
  init := rfl
  step n := match n with
    | 0 => by dsimp only; rw [e.init]; exact .inr ⟨rfl, rfl⟩
    | n + 1 => e.step n

section
variable {τ : Type} {code : Code τ} {env : Env (HandlerId → τ)} {p : Profile} {devices : List Device}
  {w : World (HandlerId → τ)}

/-- The server after the first `i` of these. -/
def netAfter (env : Env (HandlerId → τ)) (p : Profile) (N : Net (HandlerId → τ)) (pl : List (Play τ)) : Net (HandlerId → τ) :=
  N.run env p (pl.map Play.event)

/-- Bytes can arrive now. -/
def Play.can (N : Net (HandlerId → τ)) : Play τ → Bool
  | .arrive _ => (N.sys.conns 0).isSome && (N.ended 0).isNone
  | _ => true

/-- Bytes can arrive when they do. -/
def playable (env : Env (HandlerId → τ)) (p : Profile) : Net (HandlerId → τ) → List (Play τ) → Bool
  | _, [] => true
  | N, x :: pl => x.can N && playable env p (N.step env p x.event) pl

/-- Nothing in progress. -/
structure Resting (env : Env (HandlerId → τ)) (p : Profile) (devices : List Device) (w : World (HandlerId → τ)) (W : Whole code) : Prop where
  reach : ∃ ls, Tcp.Reach env p (Tcp.init devices w) ls W.tcp
  rest : AtRest W.fine.cfg
  inside : ∀ t, W.fine.inside t = none
  app : ∀ a, W.fine.app a = none

theorem AtRest.none {σ} {s : Cfg σ} (h : AtRest s) (t : Nat) : s.flights t = .none := by
  obtain ⟨sh, conns, rfl⟩ := h; rfl

theorem Resting.next {W W' : Whole code} (h : Resting env p devices w W) {lb : TcpLabel (HandlerId → τ)}
    (st : Tcp.Step env p W.tcp lb W'.tcp) (hrest : AtRest W'.fine.cfg) (hi : ∀ t, W'.fine.inside t = none) (ha : ∀ a, W'.fine.app a = none) :
    Resting env p devices w W' ∧ restOf W'.tcp = (restOf W.tcp).run env p (tcpEvent lb).toList := by
  obtain ⟨ls, hr⟩ := h.reach
  have hr' := hr.tail st
  refine ⟨⟨⟨_, hr'⟩, hrest, hi, ha⟩, ?_⟩
  have h1 : (Net.init devices w).run env p (ls.filterMap tcpEvent) = restOf W.tcp :=
    C79_quiet env p devices w ls W.tcp hr h.rest.none
  have h2 : (Net.init devices w).run env p ((ls ++ [lb]).filterMap tcpEvent) = restOf W'.tcp :=
    C79_quiet env p devices w _ W'.tcp hr' hrest.none
  rw [← h1, ← h2, List.filterMap_append]
  unfold Net.run
  rw [List.foldl_append]
  congr 1

theorem Resting.got {W : Whole code} (h : Resting env p devices w W) (c : Nat) : W.got c = outOf ((restOf W.tcp).sys.conns c) := by
  obtain ⟨ls, hr⟩ := h.reach
  have := (TInv.reach hr).idle c (fun t f hf => by
    rw [show W.tcp.cfg.flights t = .none from h.rest.none t] at hf; simp at hf)
  rw [show W.got c = W.tcp.got c from rfl, this]
  simp only [restOf]
  cases W.tcp.cfg.conns c <;> rfl

/-- The label of a step belongs to what happens. -/
def Play.owns {τ} (x : Play τ) (l : TcpLabel (HandlerId → τ)) : Prop :=
  (∀ ev, tcpEvent l = some ev → ev = x.event) ∧ ∀ t ev, l = .server (.start t ev) → live ev = x.event

/-- An execution in which all this happens, one after the other; then nothing. -/
structure Played {M : Machine code} (e : MachineExec code env p M) (devices : List Device) (w : World (HandlerId → τ))
    (pl : List (Play τ)) (T : Nat → Nat) : Prop where
  zero : T 0 = 0
  lt : ∀ i, i < pl.length → T i < T (i + 1)
  rest : ∀ i, i ≤ pl.length → Resting env p devices w (e.state (T i)).whole ∧
    restOf (e.state (T i)).whole.tcp = netAfter env p (restOf M.whole.tcp) (pl.take i)
  owns : ∀ i x, pl[i]? = some x → ∀ n, T i ≤ n → n < T (i + 1) → ∀ lb, e.label n = some lb → ∃ l, lb = .inner l ∧ x.owns l
  arrive : ∀ i bs, pl[i]? = some (.arrive bs) → T (i + 1) = T i + 1 ∧ e.label (T i) = some (.inner (.arrive 0 bs))
  use : ∀ i o v, pl[i]? = some (.use o v) → T (i + 1) = T i + 3 ∧
    (e.state (T i + 2)).whole.fine.app 0 = some (o, (e.state (T i)).whole.fine.cfg.shared.world.user o) ∧
    (e.state (T i + 2)).whole.fine.cfg.shared.world.user o = v ∧ (e.state (T i + 3)).whole.fine.app 0 = none ∧
    e.label (T i) = none ∧ e.label (T i + 1) = none
  done : ∀ n, T pl.length ≤ n → e.state n = e.state (T pl.length) ∧ e.label n = none
  frame : ∀ n, (e.state n).front = M.front ∧ (e.state n).calls = M.calls

theorem played (hb : Behaves code env) (hret : Returns code) : ∀ (pl : List (Play τ)) (M : Machine code),
    Resting env p devices w M.whole → playable env p (restOf M.whole.tcp) pl = true →
    ∃ (e : MachineExec code env p M) (T : Nat → Nat), Played e devices w pl T
  | [], M, hM, _ => by
    refine ⟨.rest code env p M, fun _ => 0, rfl, fun i hi => (by cases hi), fun i hi => ?_, fun i x h => (by simp at h),
      fun i bs h => (by simp at h), fun i o v h => (by simp at h), fun n _ => ⟨rfl, rfl⟩, fun n => ⟨rfl, rfl⟩⟩
    obtain rfl : i = 0 := by simpa using hi
    exact ⟨hM, rfl⟩
  | x :: pl, M, hM, hok => by
    rw [playable, Bool.and_eq_true] at hok
    obtain ⟨hok1, hok2⟩ := hok
    -- prefixing an execution with the steps of `x`
    have pre : ∀ (W : Whole code) (K : Nat) (e' : MachineExec code env p { M with whole := W }) (T' : Nat → Nat)
        (e : MachineExec code env p M), Resting env p devices w W → restOf W.tcp = (restOf M.whole.tcp).step env p x.event →
        Played e' devices w pl T' → 0 < K → (∀ k, e.state (K + k) = e'.state k) → (∀ k, e.label (K + k) = e'.label k) →
        (∀ k, k < K → ∀ lb, e.label k = some lb → ∃ l, lb = .inner l ∧ x.owns l) →
        (∀ k, k < K → (e.state k).front = M.front ∧ (e.state k).calls = M.calls) →
        (∀ bs, x = .arrive bs → K = 1 ∧ e.label 0 = some (.inner (.arrive 0 bs))) →
        (∀ o v, x = .use o v → K = 3 ∧ (e.state 2).whole.fine.app 0 = some (o, M.whole.fine.cfg.shared.world.user o) ∧
          (e.state 2).whole.fine.cfg.shared.world.user o = v ∧ W.fine.app 0 = none ∧ e.label 0 = none ∧ e.label 1 = none) →
        ∃ (e : MachineExec code env p M) (T : Nat → Nat), Played e devices w (x :: pl) T := by
      intro W K e' T' e hW hN P hK hs hl hlab hfr harr huse
      have e0 : e.state 0 = M := e.init
      have sh : ∀ n, K ≤ n → ∃ k, n = K + k := fun n h => Nat.exists_eq_add_of_le h
      refine ⟨e, fun i => match i with | 0 => 0 | i + 1 => K + T' i, rfl, fun i hi => ?_, fun i hi => ?_, fun i y hy n h1 h2 => ?_,
        fun i bs hy => ?_, fun i o v hy => ?_, fun n hn => ?_, fun n => ?_⟩
      · cases i with
        | zero => show 0 < K + T' 0; omega
        | succ i =>
          have := P.lt i (by simpa using hi)
          show K + T' i < K + T' (i + 1); omega
      · cases i with
        | zero => dsimp only; rw [e0]; exact ⟨hM, rfl⟩
        | succ i =>
          dsimp only
          rw [hs]
          obtain ⟨g1, g2⟩ := P.rest i (by simpa using hi)
          refine ⟨g1, g2.trans ?_⟩
          show netAfter env p (restOf W.tcp) _ = _
          rw [hN]; rfl
      · cases i with
        | zero =>
          obtain rfl : x = y := by simpa using hy
          have h2 : n < K + T' 0 := h2
          rw [P.zero] at h2
          exact hlab n h2
        | succ i =>
          dsimp only at h1 h2
          obtain ⟨k, rfl⟩ := sh n (by omega)
          rw [hl]
          exact P.owns i y (by simpa using hy) k (by omega) (by omega)
      · cases i with
        | zero =>
          obtain rfl : x = .arrive bs := by simpa using hy
          obtain ⟨q1, q2⟩ := harr bs rfl
          exact ⟨by show K + T' 0 = 0 + 1; rw [P.zero, q1], q2⟩
        | succ i =>
          obtain ⟨q1, q2⟩ := P.arrive i bs (by simpa using hy)
          exact ⟨by show K + T' (i + 1) = K + T' i + 1; omega, by dsimp only; rw [hl]; exact q2⟩
      · cases i with
        | zero =>
          obtain rfl : x = .use o v := by simpa using hy
          obtain ⟨q1, q2, q3, q4, q5, q6⟩ := huse o v rfl
          refine ⟨by show K + T' 0 = 0 + 3; rw [P.zero, q1], ?_, q3, ?_, q5, q6⟩
          · show (e.state 2).whole.fine.app 0 = some (o, (e.state 0).whole.fine.cfg.shared.world.user o)
            rw [e0]; exact q2
          · show (e.state 3).whole.fine.app 0 = none
            have := hs 0
            rw [q1, e'.init] at this
            rw [show (3 : Nat) = 3 + 0 from rfl, this]; exact q4
        | succ i =>
          obtain ⟨q1, q2, q3, q4, q5, q6⟩ := P.use i o v (by simpa using hy)
          refine ⟨by show K + T' (i + 1) = K + T' i + 3; omega, ?_, ?_, ?_, ?_, ?_⟩ <;> dsimp only
          · rw [Nat.add_assoc, hs, hs]; exact q2
          · rw [Nat.add_assoc, hs]; exact q3
          · rw [Nat.add_assoc, hs]; exact q4
          · rw [hl]; exact q5
          · rw [Nat.add_assoc, hl]; exact q6
      · change K + T' pl.length ≤ n at hn
        obtain ⟨k, rfl⟩ := sh n (by omega)
        obtain ⟨q1, q2⟩ := P.done k (by omega)
        show e.state (K + k) = e.state (K + T' pl.length) ∧ _
        rw [hs, hs, hl]; exact ⟨q1, q2⟩
      · by_cases h : n < K
        · exact hfr n h
        · obtain ⟨k, rfl⟩ := sh n (by omega)
          rw [hs]; exact P.frame k
    cases x with
    | arrive bs =>
      simp only [Play.can, Bool.and_eq_true, Option.isSome_iff_ne_none, Option.isNone_iff_eq_none] at hok1
      have hc : M.whole.tcp.cfg.conns 0 ≠ none := fun hn => hok1.1 (by simp [restOf, hn])
      have he : M.whole.tcp.ended 0 = none := hok1.2
      have st := Tcp.Step.arrive (env := env) (p := p) M.whole.tcp 0 bs hc he
      let W : Whole code := { M.whole with buf := upd M.whole.buf 0 (M.whole.buf 0 ++ bs) }
      obtain ⟨hW, hN⟩ := hM.next (W' := W) st hM.rest hM.inside hM.app
      have st' : Machine.Step code env p M (some (.inner (.arrive 0 bs))) { M with whole := W } :=
        .inner M (some (.arrive 0 bs)) W (.socket M.whole _ _ st (fun l h => by cases h) (fun l t h => by cases h)) (fun c i h => by cases h)
      obtain ⟨e', T', P⟩ := played hb hret pl { M with whole := W } hW (by rw [hN]; exact hok2)
      refine pre W 1 e' T' (e'.cons st') hW hN P (by omega) (fun k => by rw [Nat.add_comm]; rfl) (fun k => by rw [Nat.add_comm]; rfl)
        (fun k hk lb hl => ?_) (fun k hk => ?_) (fun bs' h => by cases h; exact ⟨rfl, rfl⟩) (fun o v h => by cases h)
      · obtain rfl : k = 0 := by omega
        cases hl
        exact ⟨_, rfl, fun ev h => by cases h; rfl, fun t ev h => by cases h⟩
      · obtain rfl : k = 0 := by omega
        exact ⟨rfl, rfl⟩
    | iterate =>
      obtain ⟨ls, hr⟩ := hM.reach
      obtain ⟨l, s', r, q, hN, v, w'⟩ := calm_next_only hr hM.rest (.iterate 0 .full)
      obtain ⟨W, bW, hWt, hin, hap⟩ := lift_from hb hret hr hM.inside hM.app r (fun f cr hf => by cases v _ hf _ rfl)
      have hW : Resting env p devices w W := ⟨⟨_, by rw [hWt]; exact hr.trans r⟩, by
        have := congrArg Tcp.cfg hWt
        rw [show W.fine.cfg = s'.cfg from this]; exact q, hin, hap⟩
      have hN' : restOf W.tcp = (restOf M.whole.tcp).step env p (.iterate 0 .full) := by rw [hWt]; exact hN
      obtain ⟨e', T', P⟩ := played hb hret pl { M with whole := W } hW (by rw [hN']; exact hok2)
      obtain ⟨K, E, p1, p2, p3, p4⟩ := MachineExec.after (s0 := M) bW (fun c i h => by cases v _ h _ rfl) e'.wait
      refine pre W (K + 1) e' T' E hW hN' P (by omega) (fun k => ?_) (fun k => ?_) (fun k hk lb hl => ?_) (fun k hk => p4 k (by omega))
        (fun bs h => by cases h) (fun o v h => by cases h)
      · rw [Nat.add_assoc, p1, Nat.add_comm]; rfl
      · rw [Nat.add_assoc, p2, Nat.add_comm]; rfl
      · by_cases hlt : k < K
        · obtain ⟨l', m1, rfl⟩ := p3 k hlt lb hl
          exact ⟨l', rfl, v l' m1, fun t ev h => w' t ev (by rw [← h]; exact m1)⟩
        · obtain rfl : k = K := by omega
          have := p2 0
          rw [Nat.add_zero] at this
          rw [this] at hl; cases hl
    | use o v =>
      have hfree : M.whole.fine.free o :=
        ⟨fun t i h => (by rw [hM.inside t] at h; cases h), fun a e h => (by rw [hM.app a] at h; cases h)⟩
      let F1 : Fine code := { M.whole.fine with app := upd M.whole.fine.app 0 (some (o, M.whole.fine.cfg.shared.world.user o)) }
      let F2 : Fine code := F1.setObj o v
      let F3 : Fine code := { F2 with app := upd F2.app 0 none }
      let W : Whole code := { M.whole with fine := F3 }
      have hF1 : F1.app 0 = some (o, M.whole.fine.cfg.shared.world.user o) := by simp only [F1, upd_self]
      have s1 : Machine.Step code env p M none { M with whole := { M.whole with fine := F1 } } :=
        .inner M none _ (.handler M.whole none F1 (.appEnter _ 0 o (hM.app 0) hfree) trivial) (fun c i h => by cases h)
      have s2 : Machine.Step code env p { M with whole := { M.whole with fine := F1 } } none
          { M with whole := { M.whole with fine := F2 } } :=
        .inner { M with whole := { M.whole with fine := F1 } } none _
          (.handler { M.whole with fine := F1 } none F2 (.appWork F1 0 o (M.whole.fine.cfg.shared.world.user o) v hF1) trivial)
          (fun c i h => by cases h)
      have s3 : Machine.Step code env p { M with whole := { M.whole with fine := F2 } }
          (some (.inner (.server (.outside (.user (fun u => upd u o (F2.cfg.shared.world.user o))))))) { M with whole := W } :=
        .inner { M with whole := { M.whole with fine := F2 } }
          (some (.server (.outside (.user (fun u => upd u o (F2.cfg.shared.world.user o)))))) W
          (.handler { M.whole with fine := F2 } (some _) F3
            (.appLeave F2 0 o (M.whole.fine.cfg.shared.world.user o) hF1) trivial) (fun c i h => by cases h)
      have hv : F2.cfg.shared.world.user o = v := upd_self _ _ _
      rw [hv] at s3
      have st : Tcp.Step env p M.whole.tcp (.server (.outside (.user (fun u => upd u o v) none))) W.tcp :=
        .other M.whole.tcp _ _ (.user _ _ none) (fun c i h => by cases h) (fun t c w h => by cases h) (fun t f k h => by cases h)
      have hap : ∀ a, W.fine.app a = none := by
        intro a
        by_cases h : a = 0
        · subst h; simp only [W, F3, upd_self]
        · show upd (upd M.whole.fine.app 0 _) 0 none a = none
          rw [upd_ne _ _ h, upd_ne _ _ h]; exact hM.app a
      obtain ⟨hW, hN⟩ := hM.next (W' := W) st (by
        obtain ⟨sh, conns, h⟩ := hM.rest
        refine ⟨{ sh with world := { sh.world with user := upd sh.world.user o v } }, conns, ?_⟩
        show M.whole.fine.cfg.withWorld _ = _
        rw [h]; rfl) hM.inside hap
      obtain ⟨e', T', P⟩ := played hb hret pl { M with whole := W } hW (by rw [hN]; exact hok2)
      refine pre W 3 e' T' (((e'.cons s3).cons s2).cons s1) hW hN P (by omega) (fun k => by rw [Nat.add_comm]; rfl)
        (fun k => by rw [Nat.add_comm]; rfl) (fun k hk lb hl => ?_) (fun k hk => ?_) (fun bs' h => by cases h)
        (fun o' v' h => by cases h; exact ⟨rfl, hF1, hv, hap 0, rfl, rfl⟩)
      · match k, hk with
        | 0, _ => cases hl
        | 1, _ => cases hl
        | 2, _ => cases hl; exact ⟨_, rfl, fun ev h => by cases h; rfl, fun t ev h => by cases h⟩
      · match k, hk with
        | 0, _ => exact ⟨rfl, rfl⟩
        | 1, _ => exact ⟨rfl, rfl⟩
        | 2, _ => exact ⟨rfl, rfl⟩

end

end Usbip
