import Verif.Lemmas.Stage
/-! Executions to order: with a host. -/

namespace Usbip
open Spec Samples

/-- Where in a list of moments a moment is. -/
theorem exists_idx (T : Nat → Nat) (len : Nat) (hT : ∀ i, i < len → T i < T (i + 1)) :
    ∃ idx : Nat → Nat, (∀ n, (idx n = 0 ∧ n ≤ T 0) ∨ ∃ i, i ≤ len ∧ idx n = i + 1 ∧ T i < n ∧ (i < len → n ≤ T (i + 1))) := by
  induction len with
  | zero =>
    refine ⟨fun n => if T 0 < n then 1 else 0, fun n => ?_⟩
    by_cases h : T 0 < n
    · exact .inr ⟨0, Nat.le_refl _, if_pos h, h, fun h => by omega⟩
    · exact .inl ⟨if_neg h, by omega⟩
  | succ len ih =>
    obtain ⟨idx, h⟩ := ih (fun i hi => hT i (by omega))
    refine ⟨fun n => if T (len + 1) < n then len + 2 else idx n, fun n => ?_⟩
    by_cases hn : T (len + 1) < n
    · exact .inr ⟨len + 1, Nat.le_refl _, if_pos hn, hn, fun h => by omega⟩
    · dsimp only
      rw [if_neg hn]
      rcases h n with h | ⟨i, h1, h2, h3, h4⟩
      · exact .inl h
      · refine .inr ⟨i, by omega, h2, h3, fun _ => ?_⟩
        by_cases hi : i = len
        · subst hi; omega
        · exact h4 (by omega)

theorem T_mono {T : Nat → Nat} {len : Nat} (hT : ∀ i, i < len → T i < T (i + 1)) {i j : Nat} (hij : i ≤ j) (hj : j ≤ len) : T i + (j - i) ≤ T j := by
  induction j with
  | zero => obtain rfl : i = 0 := by omega
            simp
  | succ j ih =>
    by_cases h : i = j + 1
    · subst h; simp
    · have := ih (by omega) (by omega)
      have := hT j (by omega)
      omega

section
variable {τ : Type} {code : Code τ} {env : Env (HandlerId → τ)} {p : Profile} {devices : List Device}
  {w : World (HandlerId → τ)}

/-- A server that has accepted client 0, who had already sent some bytes. -/
def accepted0 (devices : List Device) (w : World (HandlerId → τ)) (first : Bytes) : Tcp (HandlerId → τ) where
  cfg := { Cfg.init devices w with conns := setConn (fun _ => none) 0 (Conn.new ⟨[], .unexpectedEof⟩) }
  buf := upd (fun _ => []) 0 first
  ended := fun _ => none
  got := fun _ => []

/-- The server, seen from outside. -/
def net0 (devices : List Device) (w : World (HandlerId → τ)) (first : Bytes) : Net (HandlerId → τ) :=
  restOf (accepted0 devices w first)

/-- The host's part fits. -/
structure HostFits (env : Env (HandlerId → τ)) (p : Profile) (devices : List Device) (w : World (HandlerId → τ)) (busid : Bytes)
    (devid : UInt32) (pl : List (Play τ)) (H : Nat → Driver) : Prop where
  width : busid.length = 32
  start : H 0 = .start busid devid
  moves : ∀ i, i ≤ pl.length → (H i).Moves (H (i + 1))
  hears : ∀ i, i ≤ pl.length →
    (H (i + 1)).heard <+: outOf ((netAfter env p (net0 devices w (wireCmd (.reqImport 0 busid))) (pl.take i)).sys.conns 0)
  speaks : ∀ i, i ≤ pl.length + 1 → wireCmd (.reqImport 0 busid) ++ (pl.take i).flatMap Play.bytes <+: (H i).said.flatMap wireCmd
  said : (H (pl.length + 1)).said.flatMap wireCmd = wireCmd (.reqImport 0 busid) ++ pl.flatMap Play.bytes
  heard : (H (pl.length + 1)).heard = outOf ((netAfter env p (net0 devices w (wireCmd (.reqImport 0 busid))) pl).sys.conns 0)
  playable : playable env p (net0 devices w (wireCmd (.reqImport 0 busid))) pl = true
  waits : ((netAfter env p (net0 devices w (wireCmd (.reqImport 0 busid))) pl).sys.conns 0).map (fun x => x.input.bytes) = some []
  open_ : (netAfter env p (net0 devices w (wireCmd (.reqImport 0 busid))) pl).ended 0 = none

/-- All of it happens. -/
structure Staged (e : MachineExec code env p (Machine.init code devices w)) (d : Nat → Driver) (T : Nat → Nat) (busid : Bytes)
    (devid : UInt32) (pl : List (Play τ)) (H : Nat → Driver) : Prop where
  lt : ∀ i, i < pl.length → T i < T (i + 1)
  fair : e.Fair
  noRemovals : ∀ n t f i m k, (e.state n).whole.fine.cfg.flights t = some f → f.ev = .removeDevice i → f.code ≠ .lock .used m k
  alongside : Alongside e 0 busid devid d
  delivers : Delivers e 0 d
  lone : Lone e 0
  queued : (e.state 2).calls 0 = some (.listening [0]) ∧ ∀ m k, e.label m ≠ some (.dropServe k)
  host0 : ∀ n, n ≤ T 0 → d n = H 0
  host : ∀ i, i ≤ pl.length → ∀ n, T i < n → (i < pl.length → n ≤ T (i + 1)) → d n = H (i + 1)
  hosts : ∀ n, ∃ i, i ≤ pl.length + 1 ∧ d n = H i
  owns : ∀ n l, e.label n = some (.inner l) → ∃ i x, pl[i]? = some x ∧ x.owns l ∧ T i ≤ n ∧ n < T (i + 1)
  use : ∀ i o v, pl[i]? = some (.use o v) → T (i + 1) = T i + 3 ∧
    (e.state (T i + 2)).whole.fine.app 0 = some (o, (e.state (T i)).whole.fine.cfg.shared.world.user o) ∧
    (e.state (T i + 2)).whole.fine.cfg.shared.world.user o = v ∧ (e.state (T i + 3)).whole.fine.app 0 = none ∧
    e.label (T i) = none ∧ e.label (T i + 1) = none
  shared : ∀ i, i ≤ pl.length → (e.state (T i)).whole.fine.cfg.shared =
    (netAfter env p (net0 devices w (wireCmd (.reqImport 0 busid))) (pl.take i)).sys.shared
  idle : ∀ n, ∃ m, n ≤ m ∧ ∀ a, (e.state m).whole.fine.app a = none
  rest : ∀ i, i ≤ pl.length → restOf (e.state (T i)).whole.tcp =
    netAfter env p (net0 devices w (wireCmd (.reqImport 0 busid))) (pl.take i)

theorem netAfter_other {c : Nat} (hc : c ≠ 0) (pl : List (Play τ)) : ∀ N : Net (HandlerId → τ),
    (netAfter env p N pl).sys.conns c = N.sys.conns c := by
  induction pl with
  | nil => exact fun _ => rfl
  | cons x pl ih =>
    intro N
    refine (ih (N.step env p x.event)).trans ?_
    cases x with
    | arrive bs =>
      simp only [Play.event, Net.step]
      split
      · exact setConn_ne hc
      · rfl
    | iterate => exact net_iterate_other hc
    | use o v => rfl

theorem staged (hb : Behaves code env) (hret : Returns code) {busid : Bytes} {devid : UInt32} {pl : List (Play τ)} {H : Nat → Driver}
    (hf : HostFits env p devices w busid devid pl H) :
    ∃ (e : MachineExec code env p (Machine.init code devices w)) (d : Nat → Driver) (T : Nat → Nat),
      Staged e d T busid devid pl H := by
  generalize hfirst : wireCmd (.reqImport 0 busid) = first at *
  let M0 : Machine code := Machine.init code devices w
  let M1 : Machine code := { M0 with calls := upd M0.calls 0 (some (.listening [])) }
  let M2 : Machine code := { M1 with calls := upd M1.calls 0 (some (.listening [0])), front := upd M1.front 0 (.waiting [] .none) }
  let M3 : Machine code := { M2 with front := upd M2.front 0 (.waiting first .none) }
  let A := accepted0 devices w first
  let M4 : Machine code := { whole := { fine := { cfg := A.cfg, inside := fun _ => .none, app := fun _ => .none }
                                        buf := A.buf, ended := A.ended, got := A.got }
                             calls := upd M3.calls 0 (some (.listening []))
                             front := upd M3.front 0 .accepted }
  have t0 : Machine.Step code env p M0 (some (.serve 0 true)) M1 := .serve _ 0 true rfl
  have t1 : Machine.Step code env p M1 (some (.dial 0 0)) M2 := .dial _ 0 0 [] rfl rfl
  have t2 : Machine.Step code env p M2 (some (.early 0 first)) M3 := .early _ 0 [] _ rfl
  have t3 : Machine.Step code env p M3 (some (.accept 0 0 first .none)) M4 := by
    have := Machine.Step.accept (code := code) (env := env) (p := p) M3 0 0 [] first .none rfl rfl
    have h : upd M3.whole.ended 0 .none = fun _ => .none := by
      funext i; by_cases h : i = 0
      · subst h; rfl
      · rw [upd_ne _ _ h]; rfl
    rw [h] at this
    exact this
  have r1 := Tcp.Reach.tail .refl (.connect (env := env) (p := p) (Tcp.init devices w) 0 rfl)
  have r2 := Tcp.Reach.tail r1 (.arrive _ 0 first (by simp [setConn]) rfl)
  have hM4 : Resting env p devices w M4.whole := ⟨⟨_, r2⟩, ⟨_, _, rfl⟩, fun _ => rfl, fun _ => rfl⟩
  have hN4 : restOf M4.whole.tcp = net0 devices w first := rfl
  obtain ⟨E, T0, P⟩ := played (p := p) hb hret pl M4 hM4 (by rw [hN4, ← hfirst]; exact hf.playable)
  let e := (((E.cons t3).cons t2).cons t1).cons t0
  let T : Nat → Nat := fun i => T0 i + 4
  obtain ⟨L, hL⟩ : ∃ L, L = pl.length := ⟨_, rfl⟩
  have Pdone := P.done
  have Plt := P.lt
  have Prest := P.rest
  have hfm := hf.moves
  have hfh := hf.hears
  have hfs := hf.speaks
  have hfa := hf.said
  have hfb := hf.heard
  rw [← hL] at Pdone Plt Prest hfm hfh hfs hfa hfb
  have es : ∀ k, e.state (k + 4) = E.state k := fun k => rfl
  have el : ∀ k, e.label (k + 4) = E.label k := fun k => rfl
  have sh : ∀ n, 4 ≤ n → ∃ k, n = k + 4 := fun n h => ⟨n - 4, by omega⟩
  have hT0 : T 0 = 4 := by simp only [T, P.zero]
  have hlt : ∀ i, i < L → T i < T (i + 1) := fun i hi => by have := Plt i hi; simp only [T]; omega
  obtain ⟨idx, hidx⟩ := exists_idx T L hlt
  -- where a moment is
  have at_ : ∀ i, i ≤ L → ∀ n, T i < n → (i < L → n ≤ T (i + 1)) → idx n = i + 1 := by
    intro i hi n h1 h2
    have hi0 := T_mono hlt (Nat.zero_le i) hi
    rcases hidx n with ⟨_, h⟩ | ⟨j, h3, h4, h5, h6⟩
    · omega
    · rcases Nat.lt_trichotomy i j with h | h | h
      · have := T_mono hlt (show i + 1 ≤ j by omega) h3
        have := h2 (by omega)
        omega
      · omega
      · have := T_mono hlt (show j + 1 ≤ i by omega) hi
        have := h6 (by omega)
        omega
  have at0 : ∀ n, n ≤ T 0 → idx n = 0 := by
    intro n hn
    rcases hidx n with ⟨h, _⟩ | ⟨j, h3, h4, h5, h6⟩
    · exact h
    · have := T_mono hlt (Nat.zero_le j) h3
      omega
  let d : Nat → Driver := fun n => H (idx n)
  -- labels
  have owns : ∀ n l, e.label n = some (.inner l) → ∃ i x, pl[i]? = some x ∧ x.owns l ∧ T i ≤ n ∧ n < T (i + 1) := by
    intro n l hl
    by_cases hn : n < 4
    · match n, hn with
      | 0, _ => cases hl
      | 1, _ => cases hl
      | 2, _ => cases hl
      | 3, _ => cases hl
    · obtain ⟨k, rfl⟩ := sh n (by omega)
      rw [el] at hl
      by_cases hd : T0 L ≤ k
      · rw [(Pdone k hd).2] at hl; cases hl
      · rcases hidx (k + 5) with ⟨_, h⟩ | ⟨i, h1, h2, h3, h4⟩
        · have : T 0 = 4 := hT0
          omega
        · have hiL : i < L := by
            apply Classical.byContradiction
            intro h
            obtain rfl : i = L := by omega
            simp only [T] at h3
            omega
          have h4 := h4 hiL
          obtain ⟨l', g1, g2⟩ := P.owns i (pl[i]'(by omega)) (List.getElem?_eq_getElem (by omega)) k (by simp only [T] at h3; omega) (by simp only [T] at h4; omega) _ hl
          cases g1
          exact ⟨i, pl[i]'(by omega), List.getElem?_eq_getElem (by omega), g2, by omega, by omega⟩
  have allInner : ∀ k lb, e.label (k + 4) = some lb → ∃ l, lb = .inner l := by
    intro k lb hl
    by_cases hd : T0 L ≤ k
    · rw [el, (Pdone k hd).2] at hl; cases hl
    · rcases hidx (k + 5) with ⟨_, h⟩ | ⟨i, h1, h2, h3, h4⟩
      · have : T 0 = 4 := hT0
        omega
      · have hiL : i < L := by
          apply Classical.byContradiction
          intro h
          obtain rfl : i = L := by omega
          simp only [T] at h3
          omega
        have h4 := h4 hiL
        obtain ⟨l', g1, _⟩ := P.owns i (pl[i]'(by omega)) (List.getElem?_eq_getElem (by omega)) k (by simp only [T] at h3; omega) (by simp only [T] at h4; omega) _ hl
        exact ⟨l', g1⟩
  -- what arrives
  have quiet : ∀ n, (∀ i bs, pl[i]? = some (.arrive bs) → n ≠ T i) → 4 ≤ n → arrivesAt 0 (e.label n) = [] := by
    intro n hn h4
    obtain ⟨k, rfl⟩ := sh n h4
    cases hl : e.label (k + 4) with
    | none => rfl
    | some lb =>
      obtain ⟨l, rfl⟩ := allInner k lb hl
      obtain ⟨i, x, h1, h2, h3, h5⟩ := owns _ l hl
      cases l with
      | arrive c bs =>
        have := h2.1 _ rfl
        cases x with
        | arrive bs' =>
          have hT : T (i + 1) = T i + 1 := by
            have := (P.arrive i bs' h1).1
            simp only [T]; omega
          exact absurd (by omega) (hn i bs' h1)
        | iterate => cases this
        | use o v => cases this
      | _ => rfl
  have Tinj : ∀ i j, i ≤ L → j ≤ L → T i = T j → i = j := by
    intro i j hi hj h
    rcases Nat.lt_trichotomy i j with h' | h' | h'
    · have := T_mono hlt (Nat.le_of_lt h') hj; omega
    · exact h'
    · have := T_mono hlt (Nat.le_of_lt h') hi; omega
  have a4 : arrivedBy e.label 0 4 = first := by
    show [] ++ [] ++ [] ++ (if 0 = 0 then first else []) ++ [] = first
    simp
  have aT : ∀ i, i ≤ L → arrivedBy e.label 0 (T i) = first ++ (pl.take i).flatMap Play.bytes := by
    intro i
    induction i with
    | zero => intro _; rw [hT0, a4]; simp
    | succ i ih =>
      intro hi
      have hiL : i < L := by omega
      have hiL' : i < pl.length := by omega
      have hg : pl[i]? = some pl[i] := List.getElem?_eq_getElem hiL'
      have h4i := T_mono hlt (Nat.zero_le i) (by omega : i ≤ L)
      have hTi := hlt i hiL
      obtain ⟨k, hk⟩ : ∃ k, T (i + 1) = (T i + 1) + k := ⟨T (i + 1) - (T i + 1), by omega⟩
      have later : ∀ n, T i + 1 ≤ n → n < (T i + 1) + k → arrivesAt 0 (e.label n) = [] := by
        intro n h1 h2
        refine quiet n (fun j bs hj hn => ?_) (by omega)
        have hjL : j < L := by
          have := (List.getElem?_eq_some_iff.mp hj).1
          omega
        rcases Nat.lt_trichotomy i j with h' | h' | h'
        · have := T_mono hlt (show i + 1 ≤ j by omega) (by omega)
          omega
        · subst h'; omega
        · have := T_mono hlt (Nat.le_of_lt h') (by omega : i ≤ L)
          omega
      rw [hk, arrivedBy_still k later, arrivedBy, ih (by omega), List.take_succ_eq_append_getElem hiL', List.flatMap_append, List.append_assoc]
      congr 2
      have hflat : [pl[i]].flatMap Play.bytes = pl[i].bytes := by simp
      rw [hflat]
      cases hx : pl[i] with
      | arrive bs =>
        have := (P.arrive i bs (by rw [hg, hx])).2
        rw [show e.label (T i) = E.label (T0 i) from rfl, this]
        simp [arrivesAt, Play.bytes]
      | _ =>
        refine quiet (T i) (fun j bs hj hn => ?_) (by omega)
        have hjL : j < L := by have := (List.getElem?_eq_some_iff.mp hj).1; omega
        have := Tinj i j (by omega) (by omega) hn
        subst this
        rw [hg, hx] at hj; cases hj
  have aEnd : ∀ n, T L ≤ n → arrivedBy e.label 0 n = first ++ pl.flatMap Play.bytes := by
    intro n hn
    obtain ⟨k, rfl⟩ := Nat.exists_eq_add_of_le hn
    have h4i := T_mono hlt (Nat.zero_le L) (Nat.le_refl L)
    rw [arrivedBy_still k (fun i h1 h2 => ?_), aT L (Nat.le_refl _), show pl.take L = pl by rw [hL]; exact List.take_length]
    obtain ⟨j, rfl⟩ := sh i (by omega)
    rw [el, (Pdone j (by simp only [T] at h1; omega)).2]; rfl
  -- what is received
  have gT : ∀ i, i ≤ L → (e.state (T i)).whole.got 0 = outOf ((netAfter env p (net0 devices w first) (pl.take i)).sys.conns 0) := by
    intro i hi
    obtain ⟨g1, g2⟩ := Prest i hi
    rw [show e.state (T i) = E.state (T0 i) from rfl, g1.got, g2, hN4]
  have gmono : ∀ {n m}, n ≤ m → (e.state n).whole.got 0 <+: (e.state m).whole.got 0 := by
    intro n m h
    obtain ⟨j, rfl⟩ := Nat.exists_eq_add_of_le h
    clear h
    induction j with
    | zero => exact List.prefix_refl _
    | succ j ih => exact ih.trans (machine_got_mono e (n + j) 0)
  have dend : ∀ n, T L < n → d n = H (L + 1) := fun n hn => by
    show H (idx n) = _
    rw [at_ L (Nat.le_refl _) n hn (fun h => by omega)]
  have gEnd : ∀ n, (e.state n).whole.got 0 <+: (e.state (T L)).whole.got 0 := by
    intro n
    by_cases h : n ≤ T L
    · exact gmono h
    · obtain ⟨k, rfl⟩ := sh n (by simp only [T] at h; omega)
      rw [es, (Pdone k (by simp only [T] at h; omega)).1]
      exact List.prefix_refl _
  obtain ⟨g1, g2⟩ := Prest L (Nat.le_refl _)
  rw [hN4, show pl.take L = pl by rw [hL]; exact List.take_length] at g2
  have late : ∀ m, T L ≤ m → e.state m = E.state (T0 L) := by
    intro m hm
    obtain ⟨k, rfl⟩ := sh m (by simp only [T] at hm; omega)
    rw [es]; exact (Pdone k (by simp only [T] at hm; omega)).1
  have conn0 : ∀ x, (E.state (T0 L)).whole.fine.cfg.conns 0 = some x →
      x.input.bytes ++ (E.state (T0 L)).whole.buf 0 = [] := by
    intro x hx
    have h1 := hf.waits
    rw [hfirst, ← g2] at h1
    simp only [restOf, Whole.tcp, hx, Option.map_some, Option.some.injEq] at h1
    exact h1
  have connO : ∀ c x, (E.state (T0 L)).whole.fine.cfg.conns c = some x → c = 0 := by
    intro c x hx
    apply Classical.byContradiction
    intro hc
    have h1 := netAfter_other (env := env) (p := p) hc pl (net0 devices w first)
    rw [← g2] at h1
    simp [restOf, Whole.tcp, hx, net0, accepted0, setConn, hc, Cfg.init] at h1
  have open_ : (E.state (T0 L)).whole.ended 0 = none := by
    have := hf.open_
    rw [hfirst, ← g2] at this
    exact this
  refine ⟨e, d, T, by rw [← hL]; exact hlt, ?_, ?_, ⟨?_, hf.width, fun n => ?_, fun n => ?_, fun n => ?_⟩, ⟨fun n => ?_, fun n => ?_⟩, ?_, ⟨rfl, fun m k hl => ?_⟩, fun n hn => ?_,
    fun i hi n h1 h2 => ?_, fun n => ?_, owns, fun i o v h => ?_, fun i hi => ?_, fun n => ?_, fun i hi => ?_⟩
  · refine e.rest_fair (T L) late (fun t => g1.rest.none t) g1.inside g1.app (fun c x hx => ?_) (fun c x hx hr => ?_) (fun k c q h => ?_)
    · obtain rfl := connO c x hx
      exact (List.append_eq_nil_iff.1 (conn0 x hx)).2
    · obtain rfl := connO c x hx
      refine ⟨?_, open_⟩
      rw [(List.append_eq_nil_iff.1 (conn0 x hx)).1]
      rfl
    · rw [(P.frame (T0 L)).2] at h
      by_cases h0 : k = 0
      · subst h0; simp only [M4, upd_self, Option.some.injEq, Serving.listening.injEq] at h; cases h
      · simp [M4, M3, M2, M1, M0, upd_ne _ _ h0, Machine.init] at h
  · refine no_removals hb e (fun n t i hl => ?_)
    obtain ⟨j, x, _, h2, _⟩ := owns n _ hl
    have := h2.2 t _ rfl
    cases x <;> cases this
  · show H (idx 0) = _
    rw [at0 0 (by omega)]; exact hf.start
  · show (H (idx n)).Moves (H (idx (n + 1)))
    rcases hidx n with ⟨h1, h2⟩ | ⟨i, h1, h2, h3, h4⟩
    · rw [h1]
      by_cases h : n = T 0
      · rw [at_ 0 (by omega) (n + 1) (by omega) (fun h0 => by have := hlt 0 h0; omega)]
        exact hfm 0 (by omega)
      · rw [at0 (n + 1) (by omega)]; exact .refl _
    · rw [h2]
      by_cases h : i < L ∧ n = T (i + 1)
      · rw [at_ (i + 1) (by omega) (n + 1) (by omega) (fun h0 => by have := hlt (i + 1) h0; omega)]
        exact hfm (i + 1) h.1
      · rw [at_ i h1 (n + 1) (by omega) (fun h0 => by have := h4 h0; omega)]
        exact .refl _
  · show (H (idx (n + 1))).heard <+: _
    rcases hidx (n + 1) with ⟨h1, h2⟩ | ⟨i, h1, h2, h3, h4⟩
    · rw [h1, hf.start]; exact List.nil_prefix
    · rw [h2]
      have := hfh i h1
      rw [hfirst, ← gT i h1] at this
      exact this.trans (gmono (by omega))
  · show _ <+: (H (idx n)).said.flatMap wireCmd
    rcases hidx n with ⟨h1, h2⟩ | ⟨i, h1, h2, h3, h4⟩
    · rw [h1]
      have := hfs 0 (by omega)
      rw [hfirst] at this
      simp only [List.take_zero, List.flatMap_nil, List.append_nil] at this
      refine List.IsPrefix.trans ?_ this
      rw [← a4, ← hT0]
      exact arrivedBy_mono h2
    · rw [h2]
      have := hfs (i + 1) (by omega)
      rw [hfirst] at this
      refine List.IsPrefix.trans ?_ this
      by_cases hi : i < L
      · rw [← aT (i + 1) hi]
        exact arrivedBy_mono (h4 hi)
      · have hiL : i = L := by omega
        rw [hiL] at h3 ⊢
        rw [aEnd n (by omega), List.take_of_length_le (show pl.length ≤ L + 1 by omega)]
        exact List.prefix_refl _
  · refine ⟨n + T L + 1, by omega, ?_⟩
    rw [aEnd _ (by omega)]
    have hfin := hfa
    rw [hfirst] at hfin
    rw [← hfin]
    show (H (idx n)).said.flatMap wireCmd <+: (H (L + 1)).said.flatMap wireCmd
    have key : ∀ j i, i + j = L + 1 → (H i).said.flatMap wireCmd <+: (H (L + 1)).said.flatMap wireCmd := by
      intro j
      induction j with
      | zero => intro i hi; obtain rfl : i = L + 1 := by omega
                exact List.prefix_refl _
      | succ j ih =>
        intro i hi
        refine List.IsPrefix.trans ?_ (ih (i + 1) (by omega))
        obtain ⟨cs, h, _⟩ := moves_said (hfm i (by omega))
        rw [h, List.flatMap_append]
        exact List.prefix_append _ _
    rcases hidx n with ⟨h1, h2⟩ | ⟨i, h1, h2, h3, h4⟩
    · rw [h1]; exact key (L + 1) 0 (by omega)
    · rw [h2]; exact key (L - i) (i + 1) (by omega)
  · refine ⟨n + T L + 1, by omega, ?_⟩
    rw [dend _ (by omega)]
    have := hfb
    rw [hfirst] at this
    rw [this]
    have hg := gT L (Nat.le_refl _)
    rw [show pl.take L = pl by rw [hL]; exact List.take_length] at hg
    rw [← hg]
    exact gEnd n
  · intro n c' hc'
    by_cases hn : n < 4
    · match n, hn with
      | 0, _ => intro h; cases h
      | 1, _ => intro h; cases h
      | 2, _ => exact fun h => by
                  have : upd M1.front 0 (.waiting [] .none) c' = .accepted := h
                  simp only [upd_ne _ _ hc'] at this; first | cases this | simp [M1, M0, Machine.init] at this
      | 3, _ => exact fun h => by
                  have : upd M2.front 0 (.waiting first .none) c' = .accepted := h
                  simp only [upd_ne _ _ hc'] at this
                  have : upd M1.front 0 (.waiting [] .none) c' = .accepted := this
                  simp only [upd_ne _ _ hc'] at this; first | cases this | simp [M1, M0, Machine.init] at this
    · obtain ⟨k, rfl⟩ := sh n (by omega)
      rw [es, (P.frame k).1]
      simp [M4, M3, M2, M1, M0, upd_ne _ _ hc', Machine.init]
  · by_cases hn : m < 4
    · match m, hn with
      | 0, _ => cases hl
      | 1, _ => cases hl
      | 2, _ => cases hl
      | 3, _ => cases hl
    · obtain ⟨j, rfl⟩ := sh m (by omega)
      obtain ⟨l, h⟩ := allInner j _ hl
      cases h
  · show H (idx n) = _
    rw [at0 n hn]
  · show H (idx n) = _
    rw [at_ i (by omega) n h1 (by rw [hL]; exact h2)]
  · rcases hidx n with ⟨h1, h2⟩ | ⟨i, h1, h2, h3, h4⟩
    · exact ⟨0, by omega, congrArg H h1⟩
    · exact ⟨i + 1, by omega, congrArg H h2⟩
  · obtain ⟨q1, q2⟩ := P.use i o v h
    refine ⟨by simp only [T]; omega, ?_⟩
    have w2 : T i + 2 = (T0 i + 2) + 4 := by simp +arith only [T]
    have w3 : T i + 3 = (T0 i + 3) + 4 := by simp +arith only [T]
    have w1 : T i + 1 = (T0 i + 1) + 4 := by simp +arith only [T]
    rw [w2, w3, w1]
    exact q2
  · obtain ⟨q1, q2⟩ := P.rest i hi
    rw [hN4] at q2
    rw [show e.state (T i) = E.state (T0 i) from rfl, hfirst, ← q2]
    rfl
  · refine ⟨max n (T L), Nat.le_max_left _ _, fun a => ?_⟩
    obtain ⟨k, hk⟩ : ∃ k, max n (T L) = (T0 L + k) + 4 := ⟨max n (T L) - T L, by simp only [T]; omega⟩
    rw [hk, es, (Pdone _ (Nat.le_add_right _ _)).1]
    exact (Prest L (Nat.le_refl _)).1.app a
  · obtain ⟨q1, q2⟩ := P.rest i hi
    rw [hN4] at q2
    rw [show e.state (T i) = E.state (T0 i) from rfl, hfirst, ← q2]

/-- The application uses nothing. -/
theorem Staged.unused {e : MachineExec code env p (Machine.init code devices w)} {d : Nat → Driver} {T : Nat → Nat} {busid : Bytes}
    {devid : UInt32} {pl : List (Play τ)} {H : Nat → Driver} (hb : Behaves code env) (h : Staged e d T busid devid pl H)
    (none_ : ∀ (i : Nat) (o : HandlerId) (v : τ), pl[i]? ≠ some (Play.use o v)) (n a : Nat) (o : HandlerId) (e0 : τ) :
    (e.state n).whole.fine.app a ≠ some (o, e0) := by
  intro h0
  obtain ⟨m, hm, hnone⟩ := h.idle n
  have key : ∀ k, (e.state (n + k)).whole.fine.app a ≠ none := by
    intro k
    induction k with
    | zero => rw [Nat.add_zero, h0]; exact fun h => by cases h
    | succ k ih =>
      rcases e.step (n + k) with st | ⟨_, h2⟩
      rotate_left
      · rw [← Nat.add_assoc, h2]; exact ih
      cases hs : (e.state (n + k)).whole.fine.app a with
      | none => exact absurd hs ih
      | some x =>
        obtain ⟨o1, e1⟩ := x
        obtain ⟨ls, hK⟩ := exec_inv hb e (n + k)
        rcases used_step hb hK st o1 with ⟨_, _, _, _, _, g3⟩ | ⟨g, _⟩
        · obtain ⟨i, x, k1, k2, _⟩ := h.owns _ _ g3
          have := k2.1 _ rfl
          cases x with
          | arrive bs => cases this
          | iterate => cases this
          | use o' v' => exact absurd k1 (none_ i o' v')
        · exact g a e1 hs
  refine key (m - n) ?_
  rw [show n + (m - n) = m by omega, hnone a]

/-- One use of an object is all that the application does. -/
theorem Staged.uses {α β : Type} {e : MachineExec code env p (Machine.init code devices w)} {d : Nat → Driver} {T : Nat → Nat} {busid : Bytes}
    {devid : UInt32} {pl : List (Play τ)} {H : Nat → Driver} (hb : Behaves code env) (h : Staged e d T busid devid pl H) {u : Nat}
    {o : HandlerId} {v : τ} (hu : pl[u]? = some (.use o v)) (only : ∀ i o' v', pl[i]? = some (.use o' v') → i = u)
    {view : τ → β} {act : α → β → β} {as : List α}
    (hv : view v = as.foldl (fun b x => act x b) (view ((netAfter env p (net0 devices w (wireCmd (.reqImport 0 busid))) (pl.take u)).sys.shared.world.user o))) :
    Uses e o view act (fun n => if n = T u + 2 then as else []) ∧
    ∀ n, actsBy (fun n => if n = T u + 2 then as else []) n = if T u + 2 < n then as else [] := by
  obtain ⟨q1, q2, q3, q4, q5, q6⟩ := h.use u o v hu
  have huL : u < pl.length := (List.getElem?_eq_some_iff.mp hu).1
  -- the application lets go of an object only then
  have rel : ∀ n, n ≠ T u + 2 → ∀ a e0, (e.state n).whole.fine.app a = some (o, e0) → (e.state (n + 1)).whole.fine.app a ≠ none := by
    intro n hn a e0 ha
    rcases e.step n with st | ⟨_, h2⟩
    rotate_left
    · rw [h2, ha]; exact fun h => by cases h
    obtain ⟨ls, hK⟩ := exec_inv hb e n
    rcases used_step hb hK st o with ⟨a', e0', cr, g1, g2, g3⟩ | ⟨g, _⟩
    · obtain ⟨i, x, k1, k2, k3, k4⟩ := h.owns n _ g3
      have := k2.1 _ rfl
      cases x with
      | arrive bs => cases this
      | iterate => cases this
      | use o' v' =>
        obtain rfl := only i o' v' k1
        have : n = T i ∨ n = T i + 1 ∨ n = T i + 2 := by omega
        rcases this with rfl | rfl | rfl
        · rw [q5] at g3; cases g3
        · rw [q6] at g3; cases g3
        · exact absurd rfl hn
    · exact g a e0 ha
  refine ⟨⟨fun n a e0 h1 h2 => ?_, fun n hn => ?_⟩, fun n => ?_⟩
  · by_cases hn : n = T u + 2
    · subst hn
      rw [if_pos rfl]
      have h0 : (e.state (T u + 2)).whole.fine.app a = some (o, (e.state (T u)).whole.fine.cfg.shared.world.user o) := by
        obtain ⟨ls, hK⟩ := exec_inv hb e (T u + 2)
        obtain rfl := (whole_reach hb hK.whole).1.oneApp a 0 o _ _ h1 q2
        exact q2
      rw [h0] at h1
      cases h1
      rw [q3, hv, h.shared u (by omega)]
    · exact absurd h2 (rel n hn a e0 h1)
  · by_cases hn' : n = T u + 2
    · subst hn'
      exact absurd q4 (hn 0 _ q2)
    · rw [if_neg hn']
  · induction n with
    | zero => rfl
    | succ n ih =>
      rw [actsBy, ih]
      by_cases h1 : n = T u + 2
      · subst h1; simp
      · rw [if_neg h1, List.append_nil]
        by_cases h2 : T u + 2 < n
        · rw [if_pos h2, if_pos (by omega)]
        · rw [if_neg h2, if_neg (by omega)]

end

end Usbip
