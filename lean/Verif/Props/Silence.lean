import Verif.Spec.Silence
import Verif.Lemmas.Silence
import Verif.Props.Freeze
/-!
# One import request ends all service, while a handler does not return (C106)
-/

namespace Usbip
open Spec Samples

theorem Spec.WholeExec.Fair.scheduled {τ} {code : Code τ} {env : Env (HandlerId → τ)} {p : Profile} {s0 : Whole code}
    {e : WholeExec code env p s0} (h : e.Fair) : e.Scheduled := ⟨h.tasks, h.reads, h.loops⟩

theorem Spec.WholeExec.reaches {τ} {code : Code τ} {env : Env (HandlerId → τ)} {p : Profile} {s0 : Whole code}
    (e : WholeExec code env p s0) (n j : Nat) :
    ∃ ls, Whole.Reach code env p (e.state n) ls (e.state (n + j)) ∧ ∀ lb ∈ ls, ∃ m, n ≤ m ∧ e.label m = some lb := by
  induction j with
  | zero => exact ⟨[], .refl, by simp⟩
  | succ j ih =>
    obtain ⟨ls, hr, hl⟩ := ih
    rcases e.step (n + j) with st | ⟨_, h⟩
    · refine ⟨_, hr.tail st, fun lb h => ?_⟩
      rcases List.mem_append.1 h with h | h
      · exact hl lb h
      · exact ⟨n + j, by omega, Option.mem_toList.1 h⟩
    · exact ⟨ls, by rw [← Nat.add_assoc, h]; exact hr, hl⟩

theorem Spec.WholeExec.reached {τ} {code : Code τ} {env : Env (HandlerId → τ)} {p : Profile} {s0 : Whole code}
    (e : WholeExec code env p s0) (n : Nat) : ∃ ls, Whole.Reach code env p s0 ls (e.state n) := by
  obtain ⟨ls, h, _⟩ := e.reaches 0 n
  rw [e.init, Nat.zero_add] at h
  exact ⟨ls, h⟩

theorem Spec.WholeExec.inside_for_ever {τ} {code : Code τ} {env : Env (HandlerId → τ)} {p : Profile} {devices : List Device}
    {w : World (HandlerId → τ)} (hb : Behaves code env) (e : WholeExec code env p (Whole.init code devices w))
    {n u : Nat} {i : Inside code} (hi : (e.state n).fine.inside u = some i)
    (hn : ∀ l v, Goes code (code.start i.call) i.entry l v → code.result l = none) (j : Nat) :
    ∃ i', (e.state (n + j)).fine.inside u = some i' ∧ i'.call = i.call ∧ i'.entry = i.entry := by
  induction j with
  | zero => exact ⟨i, hi, rfl, rfl⟩
  | succ j ih =>
    obtain ⟨i', h1, h2, h3⟩ := ih
    rcases e.step (n + j) with st | ⟨_, h⟩
    · obtain ⟨ls, hr⟩ := e.reached (n + j)
      obtain ⟨⟨i'', h4, h5, h6⟩, _⟩ := inside_stays (whole_reach hb hr).1 st h1 (by rw [h2, h3]; exact hn)
      exact ⟨i'', h4, h5.trans h2, h6.trans h3⟩
    · exact ⟨i', by rw [← Nat.add_assoc, h]; exact h1, h2, h3⟩

/-- C106, it must come: while a command is inside handler code that never returns (program `u`), let an import request
have arrived on a connection that is between two commands.  However tasks are scheduled, as long as each that can run is run at some time: there will be somebody who waits to write the
table of used devices — the state of `C106_freeze` — unless tasks are dropped. -/
theorem C106_comes {τ} (code : Code τ) (env : Env (HandlerId → τ)) (hb : Behaves code env) (p : Profile)
    (devices : List Device) (w : World (HandlerId → τ)) (e : WholeExec code env p (Whole.init code devices w))
    (hs : e.Scheduled) (n u c : Nat) (i : Inside code) (hi : (e.state n).fine.inside u = some i)
    (hn : ∀ l v, Goes code (code.start i.call) i.entry l v → code.result l = none)
    (x : Conn) (hx : (e.state n).fine.cfg.conns c = some x) (hr : x.status = .running) (hc : (e.state n).fine.cfg.idle c)
    (st : UInt32) (busid : Bytes) (more : Arrived)
    (hin : (readCommand p : Rd Arrived Cmd) ⟨x.input.bytes ++ (e.state n).buf c⟩ = .ok (.reqImport st busid, more))
    (hu : e.Undisturbed n c) :
    ∃ m, n ≤ m ∧ ∃ t f k, (e.state m).fine.cfg.flights t = some f ∧ f.waiting = true ∧ f.code = .lock .used .w k := by
  obtain ⟨e', B⟩ := exists_behind hb e
  refine B.import_comes hs.tasks hs.reads hs.loops (u := u) (fun m hm => ?_) hx hr hc hin (fun m hm => (hu m hm).2)
    (fun m t o hm => (hu m hm).1 t o)
  obtain ⟨j, rfl⟩ := Nat.exists_eq_add_of_le hm
  obtain ⟨_, h, _⟩ := e.inside_for_ever hb hi hn j
  obtain ⟨g, _, _, hg, _, _, hheld⟩ := (B.inv _).call u _ h
  exact ⟨g, hg, hheld⟩

/-- C106, the end of all service: under the conditions of `C106_comes` there is a time from which on no client
receives a byte, whoever it is, whenever it connects, and whatever it sends. -/
theorem C106_silence {τ} (code : Code τ) (env : Env (HandlerId → τ)) (hb : Behaves code env) (p : Profile)
    (devices : List Device) (w : World (HandlerId → τ)) (e : WholeExec code env p (Whole.init code devices w))
    (hs : e.Scheduled) (n u c : Nat) (i : Inside code) (hi : (e.state n).fine.inside u = some i)
    (hn : ∀ l v, Goes code (code.start i.call) i.entry l v → code.result l = none)
    (x : Conn) (hx : (e.state n).fine.cfg.conns c = some x) (hr : x.status = .running) (hc : (e.state n).fine.cfg.idle c)
    (st : UInt32) (busid : Bytes) (more : Arrived)
    (hin : (readCommand p : Rd Arrived Cmd) ⟨x.input.bytes ++ (e.state n).buf c⟩ = .ok (.reqImport st busid, more))
    (hu : e.Undisturbed n c) :
    ∃ M, n ≤ M ∧ ∀ m c', M ≤ m → (e.state m).got c' = (e.state M).got c' := by
  obtain ⟨m0, hm0, t, f, k, hf, hw, hk⟩ := C106_comes code env hb p devices w e hs n u c i hi hn x hx hr hc st busid more hin hu
  obtain ⟨e', B⟩ := exists_behind hb e
  have ins : ∀ m, n ≤ m → ∃ i', (e.state m).fine.inside u = some i' ∧ i'.call = i.call ∧ i'.entry = i.entry := by
    intro m hm
    obtain ⟨j, rfl⟩ := Nat.exists_eq_add_of_le hm
    exact e.inside_for_ever hb hi hn j
  have from' : ∀ m m', n ≤ m → m ≤ m' → (e.state m).fine.cfg.flights t = some f →
      (e.state m').fine.cfg.flights t = some f ∧
      ∀ c', (e.state m).fine.cfg.idle c' → (e.state m').got c' = (e.state m).got c' := by
    intro m m' hm hm' hf
    obtain ⟨j, rfl⟩ := Nat.exists_eq_add_of_le hm'
    obtain ⟨i', h1, h2, h3⟩ := ins m hm
    obtain ⟨ls0, r0⟩ := e.reached m
    obtain ⟨ls, r, hl⟩ := e.reaches m j
    obtain ⟨_, h4, _, h5⟩ := C106_freeze code env hb p devices w ls0 ls _ _ r0 u t i' f k h1 (by rw [h2, h3]; exact hn) hf hw hk r
      (fun o ho => by
        obtain ⟨m1, hm1, h⟩ := hl _ ho
        exact (hu m1 (by omega)).1 t o h)
    exact ⟨h4, fun c' hc' => (h5 c' hc').1⟩
  obtain ⟨M, hM, h⟩ := e'.silence (n := m0) (fun c' m m' hm hm' hi' => by
    rw [B.got_eq, B.got_eq]
    exact (from' m m' (by omega) hm' (from' m0 m hm0 hm hf).1).2 c' (B.idle_iff.1 hi'))
  refine ⟨M, by omega, fun m c' hm => ?_⟩
  have := h m c' hm
  rwa [B.got_eq, B.got_eq] at this

/-- A program that waits to write a table that another one reads does not get on. -/
theorem waiter_acts {τ} {code : Code τ} {env : Env (HandlerId → τ)} {p : Profile} {s s' : Whole code}
    {lb : Option (TcpLabel (HandlerId → τ))} {u t : Nat} {g f : Flight (HandlerId → τ)} {k : Task (HandlerId → τ)}
    (hu : s.fine.cfg.flights u = some g) (hg : g.held .used ≠ none) (hut : t ≠ u) (hin : s.fine.inside t = none)
    (ht : s.fine.cfg.flights t = some f) (hw : f.waiting = true) (hk : f.code = .lock .used .w k)
    (st : Whole.Step code env p s lb s') : ¬ Acts t s lb s' := by
  have hnd : ∀ {l : Label (HandlerId → τ)}, Advances l → ∀ o, l ≠ .dropped t o := fun ha o h => by subst h; exact ha
  have hne : ∀ {l : Label (HandlerId → τ)}, prog l = some t → prog l ≠ some u := fun h h' => by
    rw [h] at h'; exact hut (Option.some.inj h')
  rintro (⟨l, rfl, ha, hp⟩ | ⟨_, h⟩ | ⟨i, h, _⟩)
  · generalize hlab : (some (TcpLabel.server l)) = ol at st
    cases st with
    | socket lb a st hl ho =>
      cases hlab
      exact (tcp_waiter_step (s := s.tcp) hu hg ht hw hk st (fun b hb => by cases hb; exact hne hp) (fun o h => by
        cases h; exact ha)).2.2 l rfl hp
    | handler lb f st hl =>
      cases st with
      | outer lb cfg' st =>
        simp only [Option.map_some, Option.some.injEq, TcpLabel.server.injEq] at hlab
        subst hlab
        exact (waiter_stuck hu hg ht hw hk (.tail .refl st)
          (fun b hb => by simp only [List.nil_append, List.mem_singleton] at hb; subst hb; exact hne hp)
          (fun o hm => by
            simp only [List.nil_append, List.mem_singleton] at hm
            exact hnd ha o hm.symm)).2.2 l (by simp) hp
      | poisoned t' f' g' k' c cont ht' hk' =>
        cases hlab; cases hp
        rw [ht] at ht'; cases ht'
        rw [hk] at hk'; cases hk'
      | leave t' f i r ht' => cases hlab; cases hp; rw [hin] at ht'; cases ht'
      | appLeave a o e ha' => cases hlab; cases hp
      | appCrash a o e ha' => cases hlab; cases hp
      | appPanic o hf => cases hlab; cases hp
      | _ => cases hlab
  · refine h ?_
    cases st with
    | socket => exact hin
    | handler lb f st hl =>
      cases st with
      | enter t' f' g' k' c cont ht' hk' =>
        by_cases e : t = t'
        · subst e
          rw [ht] at ht'; cases ht'
          rw [hk] at hk'; cases hk'
        · exact (upd_ne _ _ e).trans hin
      | work t' i ht' =>
        by_cases e : t = t'
        · subst e; rw [hin] at ht'; cases ht'
        · exact (upd_ne _ _ e).trans hin
      | leave t' f i r ht' =>
        by_cases e : t = t'
        · subst e; rw [hin] at ht'; cases ht'
        · exact (upd_ne _ _ e).trans hin
      | _ => exact hin
  · rw [hin] at h; cases h

/-- A program that is not there does not get on. -/
theorem absent_acts {τ} {code : Code τ} {env : Env (HandlerId → τ)} {p : Profile} {s s' : Whole code}
    {lb : Option (TcpLabel (HandlerId → τ))} {t : Nat} (hfl : s.fine.cfg.flights t = none) (hin : s.fine.inside t = none)
    (st : Whole.Step code env p s lb s') : ¬ Acts t s lb s' := by
  rintro (⟨l, rfl, ha, hp⟩ | ⟨_, h⟩ | ⟨i, h, _⟩)
  · generalize hlab : (some (TcpLabel.server l)) = ol at st
    cases st with
    | socket lb a st hl ho =>
      cases hlab
      obtain ⟨a', b', st, ha', _⟩ := tcp_flightStep st
      obtain ⟨g, rfl, _⟩ := first_step st (by rw [ha']; exact hfl) hp
      exact ha
    | handler lb f st hl =>
      cases st with
      | outer lb cfg' st =>
        simp only [Option.map_some, Option.some.injEq, TcpLabel.server.injEq] at hlab
        subst hlab
        obtain ⟨g, rfl, _⟩ := first_step st hfl hp
        exact ha
      | poisoned t' f g k c cont ht => cases hlab; cases hp; rw [hfl] at ht; cases ht
      | leave t' f i r ht => cases hlab; cases hp; rw [hin] at ht; cases ht
      | appLeave a o e ha' => cases hlab; cases hp
      | appCrash a o e ha' => cases hlab; cases hp
      | appPanic o hf => cases hlab; cases hp
      | _ => cases hlab
  · refine h ?_
    cases st with
    | socket => exact hin
    | handler lb f st hl =>
      cases st with
      | enter t' f' g' k' c cont ht' hk' =>
        by_cases e : t = t'
        · subst e; rw [hfl] at ht'; cases ht'
        · exact (upd_ne _ _ e).trans hin
      | work t' i ht' =>
        by_cases e : t = t'
        · subst e; rw [hin] at ht'; cases ht'
        · exact (upd_ne _ _ e).trans hin
      | leave t' f i r ht' =>
        by_cases e : t = t'
        · subst e; rw [hin] at ht'; cases ht'
        · exact (upd_ne _ _ e).trans hin
      | _ => exact hin
  · rw [hin] at h; cases h

/-- A case of `C106_comes` and `C106_silence`: two devices, client 0 has imported "1-1" and has sent a submit whose handler
sleeps; client 1 has connected, and has sent a request for "1-2". -/
theorem C106_silent : ∃ (e : WholeExec sleeper adderEnv dev (Whole.init sleeper [devA, devB] adderWorld)) (n : Nat)
    (i : Inside sleeper) (x : Conn) (more : Arrived), e.Scheduled ∧ (e.state n).fine.inside 0 = some i ∧
    (∀ l v, Goes sleeper (sleeper.start i.call) i.entry l v → sleeper.result l = none) ∧
    (e.state n).fine.cfg.conns 1 = some x ∧ x.status = .running ∧ (e.state n).fine.cfg.idle 1 ∧
    (readCommand dev : Rd Arrived Cmd) ⟨x.input.bytes ++ (e.state n).buf 1⟩ = .ok (.reqImport 0 busB, more) ∧
    e.Undisturbed n 1 := by
  have hb : Behaves sleeper adderEnv := fun c u l v r h hr => by simp [sleeper] at hr
  obtain ⟨ls, s, i, h, hi, _, ⟨f0, x0, hf0, ho0, hx0⟩, hn, _, hno, hq, hcn⟩ := asleep
  have hc : s.fine.cfg.conns 1 = none := hcn 1 (by decide)
  obtain ⟨hI, w0, _, hr⟩ := whole_reach hb h
  have hT := TInv.reach hr
  obtain ⟨hbuf, hend, _⟩ := hT.fresh 1 hc
  have hbuf : s.buf 1 = [] := hbuf
  have hend : s.ended 1 = none := hend
  have idle : s.fine.cfg.idle 1 := fun v g hv ho => by
    obtain ⟨x, hx, _⟩ := hT.owned (f := g) hv ho
    rw [show s.fine.cfg.conns 1 = some x from hx] at hc; cases hc
  have hin : s.fine.inside 1 = none := by
    cases e : s.fine.inside 1 with
    | none => rfl
    | some j => obtain ⟨f, _, _, hf, _⟩ := hI.call 1 j e; rw [hno 1 (by decide)] at hf; cases hf
  have hnw := ((C81_exclusive sleeper adderEnv hb dev _ _ ls s h).2.2.2.2 0 i hi).2
  obtain ⟨ls2, s2, r2, hc2, hb2, hf2, hi2, hq2, hn2⟩ : ∃ ls2 s2,
      Whole.Reach sleeper adderEnv dev (Whole.init sleeper [devA, devB] adderWorld) ls2 s2 ∧
      s2.fine.cfg.conns 1 = some (Conn.new ⟨[], .unexpectedEof⟩) ∧ s2.buf 1 = wireCmd (.reqImport 0 busB) ∧
      s2.fine.cfg.flights = s.fine.cfg.flights ∧ s2.fine.inside = s.fine.inside ∧ s2.fine.cfg.queue = s.fine.cfg.queue ∧
      ∀ d, d ≠ 1 → s2.fine.cfg.conns d = s.fine.cfg.conns d := by
    have r1 := Whole.Reach.tail h (.socket _ _ _
      (.connect _ 1 hc) (fun l e => by cases e; exact id) (fun l t' e e' => by cases e; cases e'))
    have r2 := r1.tail (.socket _ _ _ (.arrive _ 1 (wireCmd (.reqImport 0 busB)) (by simp [Whole.tcp, setConn]) hend)
      nofun nofun)
    exact ⟨_, _, r2, by simp [Whole.tcp, setConn], by simp [Whole.tcp, upd_self, hbuf], rfl, rfl, rfl,
      fun d hd => by simp [Whole.tcp, setConn, hd]⟩
  have idle2 : s2.fine.cfg.idle 1 := fun v g hv => idle v g (by rw [← hf2]; exact hv)
  obtain ⟨ls5, s5, f, k, r5, hf, hw, hk, ho, hoth, hins, hcn5, _, hl5, _⟩ := asked_waits (.refl (s0 := s2) (code := sleeper)
    (env := adderEnv) (p := dev)) 1 1 busB rfl
    (by rw [hf2]; exact hno 1 (by decide)) (by rw [hi2]; exact hin) hc2 idle2 hb2 (by rw [hq2]; exact hq) (by rw [hf2]; exact hnw)
  rw [List.nil_append] at r5
  have hI5 : MInv adderEnv s5.fine := (whole_reach hb (r2.trans r5)).1
  have i5 : s5.fine.inside 0 = some i := by rw [hins, hi2]; exact hi
  have f5 : s5.fine.cfg.flights 0 = some f0 := by rw [hoth 0 (by decide), hf2]; exact hf0
  have n5 : ∀ t, 2 ≤ t → s5.fine.cfg.flights t = none := fun t ht => by
    rw [hoth t (by omega), hf2]; exact hno t (by omega)
  have c5 : ∀ c, 2 ≤ c → s5.fine.cfg.conns c = none := fun c hc' => by
    rw [hcn5 c (by omega), hn2 c (by omega)]; exact hcn c (by omega)
  have o5 : ∀ t, t ≠ 0 → s5.fine.inside t = none := fun t ht => by
    cases e : s5.fine.inside t with
    | none => rfl
    | some j =>
      obtain ⟨g, _, _, hg, hgk, _⟩ := hI5.call t j e
      by_cases h1 : t = 1
      · subst h1; rw [hf] at hg; cases hg; rw [hk] at hgk; cases hgk
      · rw [n5 t (by omega)] at hg; cases hg
  obtain ⟨g0, _, _, hg0, _, _, hheld⟩ := hI5.call 0 i i5
  rw [f5] at hg0; cases hg0
  have busy : ∀ c, s5.fine.cfg.conns c ≠ none → ¬ s5.fine.cfg.idle c := by
    intro c hc' hid
    by_cases e0 : c = 0
    · subst e0; exact hid 0 f0 f5 ho0
    by_cases e1 : c = 1
    · subst e1; exact hid 1 f hf ho
    exact hc' (c5 c (by omega))
  obtain ⟨N1, e1, hs1, hlb1, hpre1⟩ := WholeExec.after r5 (WholeExec.rest sleeper adderEnv dev s5)
  obtain ⟨N0, e0, hs0, hlb0, hpre0⟩ := WholeExec.after r2 e1
  have st5 : ∀ m, N0 + N1 ≤ m → e0.state m = s5 := by
    intro m hm
    obtain ⟨j, rfl⟩ := Nat.exists_eq_add_of_le hm
    rw [Nat.add_assoc, hs0, hs1]; rfl
  have hn0 : e0.state N0 = s2 := by rw [← Nat.add_zero N0, hs0, e1.init]
  refine ⟨e0, N0, i, Conn.new ⟨[], .unexpectedEof⟩, ⟨[]⟩, ⟨fun t n => ?_, fun c n => ⟨max n (N0 + N1), by omega, .inr ?_⟩,
    fun c n => ⟨max n (N0 + N1), by omega, .inr ?_⟩⟩, ?_, hn, ?_, rfl, ?_, ?_, ?_⟩
  · refine ⟨max n (N0 + N1), by omega, ?_⟩
    rw [st5 _ (by omega), st5 _ (by omega)]
    by_cases t0 : t = 0
    · subst t0
      exact .inl (.inr (.inr ⟨i, i5, rfl, i5, rfl⟩))
    by_cases t1 : t = 1
    · subst t1
      exact .inr fun ⟨lb, s', st, ha⟩ => waiter_acts f5 (by rw [hheld]; nofun) t0 (o5 1 t0) hf hw hk st ha
    · exact .inr fun ⟨lb, s', st, ha⟩ => absent_acts (n5 t (by omega)) (o5 t t0) st ha
  · rw [st5 _ (by omega)]
    rintro ⟨s', st, _⟩
    have st := whole_tcp_step st (fun l e => by cases e)
    generalize s'.tcp = s6 at st
    cases st with
    | take _ x bs rest hc hi hbuf =>
      have hc : s5.fine.cfg.conns c = some x := hc
      exact busy c (by rw [hc]; nofun) hi
  · rw [st5 _ (by omega)]
    rintro ⟨t, w, s', st⟩
    have st := whole_tcp_step st (fun l e => by cases e; exact id)
    generalize s'.tcp = s6 at st
    cases st with
    | iterate _ _ _ x ht hc hr hi hd =>
      have hc : s5.fine.cfg.conns c = some x := hc
      exact busy c (by rw [hc]; nofun) hi
    | iterateEnd _ _ _ x e ht hc hr hi he hb =>
      have hc : s5.fine.cfg.conns c = some x := hc
      exact busy c (by rw [hc]; nofun) hi
    | other _ _ st h1 h2 h3 => exact h2 _ _ _ rfl
  · rw [hn0, hi2]; exact hi
  · rw [hn0]; exact hc2
  · rw [hn0]; exact idle2
  · rw [hn0, hb2]; decide +kernel
  · have lab : ∀ m, N0 ≤ m → e0.label m = none ∨ ∃ lb ∈ ls5, e0.label m = some lb := by
      intro m hm
      obtain ⟨j, rfl⟩ := Nat.exists_eq_add_of_le hm
      rw [hlb0]
      by_cases hj : j < N1
      · cases hl : e1.label j with
        | none => exact .inl rfl
        | some lb => exact .inr ⟨lb, hpre1 j hj lb hl, rfl⟩
      · obtain ⟨d, rfl⟩ := Nat.exists_eq_add_of_le (Nat.le_of_not_lt hj)
        rw [hlb1]
        exact .inl rfl
    intro m hm
    rcases lab m hm with h | ⟨lb, h, h'⟩
    · rw [h]; exact ⟨fun _ _ => nofun, nofun⟩
    · rw [h']
      rcases hl5 lb h with rfl | rfl | rfl <;> exact ⟨fun _ _ => nofun, nofun⟩

end Usbip
