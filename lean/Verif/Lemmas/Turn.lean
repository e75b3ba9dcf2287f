import Verif.Lemmas.Live
/-! Helper lemmas: in a fair execution on sockets, it is every connection's turn again and again. -/

namespace Usbip
open Spec

/-! ## What an iteration leaves -/

/-- Whatever the program leaves of its connection satisfies `P`. -/
def Task.Leaves {σ} (P : Conn → Prop) : Task σ → Prop
  | .done x => ∃ y, x = .conn y ∧ P y
  | .lock _ _ k => k.Leaves P
  | .unlock _ k => k.Leaves P
  | .getUsed k => ∀ v, (k v).Leaves P
  | .getAvail k => ∀ v, (k v).Leaves P
  | .putUsed _ k => k.Leaves P
  | .putAvail _ k => k.Leaves P
  | .commit _ k => ∀ w, (k w).Leaves P
  | .send k => k.Leaves P

theorem Leaves_mono {σ} {P Q : Conn → Prop} (h : ∀ y, P y → Q y) (k : Task σ) : k.Leaves P → k.Leaves Q := by
  induction k with
  | done x => rintro ⟨y, rfl, hy⟩; exact ⟨y, rfl, h y hy⟩
  | lock l md k ih => exact ih
  | unlock l k ih => exact ih
  | getUsed k ih => exact fun hh v => ih v (hh v)
  | getAvail k ih => exact fun hh v => ih v (hh v)
  | putUsed v k ih => exact ih
  | putAvail v k ih => exact ih
  | commit f k ih => exact fun hh v => ih v (hh v)
  | send k ih => exact ih

theorem Leaves_step {σ} {P : Conn → Prop} {k k' : Task σ} {h h' : Lk → Option Mode} (st : CodeStep k h k' h')
    (hl : k.Leaves P) : k'.Leaves P := by
  cases st with
  | same => exact hl
  | lock => exact hl
  | unlock => exact hl
  | getUsed k v => exact hl v
  | getAvail k v => exact hl v
  | putUsed => exact hl
  | putAvail => exact hl
  | commit g k w => exact hl w
  | send => exact hl

theorem Spec.Over.ne {y : Conn} (h : Over y) : y.status ≠ .running := by
  rcases h with h | ⟨_, h | ⟨e, h⟩⟩ <;> rw [h] <;> simp

/-- What an iteration that read `o` from the socket makes of connection `x`. -/
def Becomes (p : Profile) (w : WriteRes) (x y : Conn) : Outcome (Cmd × Bytes) → Prop
  | .ok (cmd, rest) =>
    (∃ resp, AnswersNext p x y cmd resp ∧ y.input.bytes = rest) ∨ y.status = .panicked ∨
      (w ≠ .full ∧ y.status ≠ .running)
  | _ => Over y ∧ y.served = x.served ∧ y.output = x.output

theorem finish_becomes (p : Profile) (x : Conn) (rest : Stream) (cmd : Cmd) (w : WriteRes) (cur : Option Bytes)
    (r : Outcome Resp) (hr : x.status = .running) :
    Becomes p w x (x.finish p rest cmd w cur r) (.ok (cmd, rest.bytes)) := by
  cases r with
  | ok resp =>
    cases hb : resp.toBytes p with
    | ok b =>
      cases w with
      | full =>
        refine .inl ⟨resp, ⟨?_, ?_, b, hb, ?_⟩, ?_⟩ <;> simp [Conn.finish, hb, hr]
      | fail n e => exact .inr (.inr ⟨by simp, by simp [Conn.finish, hb]⟩)
      | cut n => exact .inr (.inr ⟨by simp, by simp [Conn.finish, hb]⟩)
    | err e => exact .inr (.inl (by simp [Conn.finish, hb]))
    | panic => exact .inr (.inl (by simp [Conn.finish, hb]))
    | diverge => exact .inr (.inl (by simp [Conn.finish, hb]))
  | err e => exact .inr (.inl rfl)
  | panic => exact .inr (.inl rfl)
  | diverge => exact .inr (.inl rfl)

theorem iterTask_becomes {σ} (env : Env σ) (p : Profile) (x : Conn) (w : WriteRes) (hr : x.status = .running)
    (o : Outcome (Cmd × Bytes))
    (ho : match readCommand p x.input with
      | .ok (cmd, rest) => o = .ok (cmd, rest.bytes)
      | _ => ∀ q, o ≠ .ok q) :
    (iterTask env p x w).Leaves (fun y => Becomes p w x y o) := by
  have over : ∀ {y : Conn}, (∀ q, o ≠ .ok q) → Over y → y.served = x.served → y.output = x.output → Becomes p w x y o := by
    intro y hq hy hs hou
    cases o with
    | ok q => exact absurd rfl (hq q)
    | err e => exact ⟨hy, hs, hou⟩
    | panic => exact ⟨hy, hs, hou⟩
    | diverge => exact ⟨hy, hs, hou⟩
  unfold iterTask
  cases hc : readCommand p x.input with
  | ok q =>
    obtain ⟨cmd, rest⟩ := q
    rw [hc] at ho
    dsimp only at ho
    subst ho
    have fin : ∀ cur r, Becomes p w x (x.finish p rest cmd w cur r) (.ok (cmd, rest.bytes)) :=
      fun cur r => finish_becomes p x rest cmd w cur r hr
    cases cmd with
    | reqDevlist s => exact fun _ _ => ⟨_, rfl, fin _ _⟩
    | reqImport s b =>
      intro _ a
      dsimp only
      cases takeFirst (busidCompare b) a with
      | none => exact ⟨_, rfl, fin _ _⟩
      | some q => exact fun _ => ⟨_, rfl, fin _ _⟩
    | submit hd f len sf np iv setup data iso =>
      intro u
      dsimp only
      cases x.current.bind (fun id => amGet id u) with
      | none => exact fun _ => ⟨_, rfl, fin _ _⟩
      | some d => exact fun _ => ⟨_, rfl, fin _ _⟩
    | unlink hd n => exact fun _ => ⟨_, rfl, fin _ _⟩
  | err e =>
    rw [hc] at ho
    dsimp only at ho
    have hov : ∀ cur, Over ({ x with current := cur, status := if e = .unexpectedEof then .closed else .failed e } : Conn) ∨ cur ≠ none := by
      intro cur
      cases cur with
      | some _ => exact .inr (by simp)
      | none =>
        refine .inl (.inr ⟨rfl, ?_⟩)
        by_cases he : e = .unexpectedEof
        · exact .inl (by simp [he])
        · exact .inr ⟨e, by simp [he]⟩
    have hov' := (hov none).resolve_right (by simp)
    dsimp only
    unfold releaseTask
    dsimp only
    cases x.current with
    | none => exact fun _ => ⟨_, rfl, over ho hov' rfl rfl⟩
    | some id' =>
      intro _ u
      dsimp only
      cases amGet id' u with
      | none => exact ⟨_, rfl, over ho (.inl rfl) rfl rfl⟩
      | some d => exact fun _ => ⟨_, rfl, over ho hov' rfl rfl⟩
  | panic =>
    rw [hc] at ho
    exact fun _ => ⟨_, rfl, over ho (.inl rfl) rfl rfl⟩
  | diverge =>
    rw [hc] at ho
    exact fun _ => ⟨_, rfl, over ho (.inl rfl) rfl rfl⟩

/-- The same, for what was read from the bytes that have arrived. -/
def After (p : Profile) (w : WriteRes) (x y : Conn) : Prop :=
  Becomes p w x y ((readCommand p : Rd Arrived Cmd) ⟨x.input.bytes⟩ >>= fun q => .ok (q.1, q.2.bytes))

theorem iterTask_after {σ} (env : Env σ) (p : Profile) (x : Conn) (w : WriteRes) (hr : x.status = .running) :
    (iterTask env p x w).Leaves (After p w x) := by
  refine iterTask_becomes env p x w hr _ ?_
  have he := early_readCommand p x.input.bytes
  have hx : x.input = ⟨x.input.bytes ++ [], x.input.fin⟩ := by rw [List.append_nil]
  cases h : (readCommand p : Rd Arrived Cmd) ⟨x.input.bytes⟩ with
  | ok q =>
    obtain ⟨cmd, r⟩ := q
    rw [h] at he
    have := he [] x.input.fin
    rw [← hx, List.append_nil] at this
    rw [this]; rfl
  | err e =>
    rw [h] at he
    have := he [] x.input.fin
    rw [← hx] at this
    rw [this]; intro q; simp [Bind.bind, Outcome.bind]
  | panic =>
    rw [h] at he
    have := he [] x.input.fin
    rw [← hx] at this
    rw [this]; intro q; simp [Bind.bind, Outcome.bind]
  | diverge =>
    rw [h] at he
    have := he x.input.fin
    rw [this]; intro q; simp [Bind.bind, Outcome.bind]

/-- `read_from_socket` need not wait on connection `c`, from which `x.input` was taken. -/
def Ready {σ} (p : Profile) (s : Tcp σ) (c : Nat) (x : Conn) : Prop :=
  (readCommand p : Rd Arrived Cmd) ⟨x.input.bytes⟩ ≠ .diverge ∨ ((∃ e, s.ended c = some e) ∧ s.buf c = [])

/-- The iterations in flight: what they will leave, that they have been started, and that what they
read was there. -/
structure LInv {σ} (p : Profile) (ls : List (TcpLabel σ)) (s : Tcp σ) : Prop where
  leaves : ∀ t f c wr x, s.cfg.flights t = some f → f.owner = some c → f.ev = .iterate c wr →
    s.cfg.conns c = some x → f.code.Leaves (After p wr x)
  started : ∀ t f c wr, s.cfg.flights t = some f → f.ev = .iterate c wr →
    ∃ u, TcpLabel.server (.start u (.iterate c wr)) ∈ ls
  ready : ∀ t f c x, s.cfg.flights t = some f → f.owner = some c → s.cfg.conns c = some x → Ready p s c x

theorem LInv.step {σ} {env : Env σ} {p : Profile} {devices : List Device} {w : World σ} {ls : List (TcpLabel σ)}
    {s s' : Tcp σ} {lb : TcpLabel σ} (hT : TInv env p devices w ls s) (h : LInv p ls s)
    (st : Tcp.Step env p s lb s') : LInv p (ls ++ [lb]) s' := by
  have hown : ∀ t u f g c, s.cfg.flights t = some f → s.cfg.flights u = some g → f.owner = some c →
      g.owner = some c → t = u := fun t u f g c hf hg => hT.owners hf hg
  have mem : ∀ {c wr}, (∃ u, TcpLabel.server (.start u (.iterate c wr)) ∈ ls) →
      ∃ u, TcpLabel.server (.start u (.iterate c wr)) ∈ ls ++ [lb] := by
    rintro c wr ⟨u, hu⟩; exact ⟨u, List.mem_append_left _ hu⟩
  have rdy : ∀ {c x}, (∀ e, s.ended c = some e → s'.ended c = some e ∧ s'.buf c = s.buf c) → Ready p s c x →
      Ready p s' c x := by
    rintro c x hk (hd | ⟨⟨e, he⟩, hb⟩)
    · exact .inl hd
    · exact .inr ⟨⟨e, (hk e he).1⟩, (hk e he).2.trans hb⟩
  have same : s'.cfg = s.cfg → (∀ c e, s.ended c = some e → s'.ended c = some e ∧ s'.buf c = s.buf c) →
      LInv p (ls ++ [lb]) s' := by
    intro e hk
    exact ⟨by rw [e]; exact h.leaves, fun t f c wr hf he => mem (h.started t f c wr (by rw [← e]; exact hf) he),
      fun t f c x hf ho hx => rdy (hk c) (h.ready t f c x (by rw [← e]; exact hf) ho (by rw [← e]; exact hx))⟩
  have conn : ∀ c0 z, s'.cfg = { s.cfg with conns := setConn s.cfg.conns c0 z } → s.cfg.idle c0 →
      (∀ c, c ≠ c0 → s'.ended c = s.ended c ∧ s'.buf c = s.buf c) → LInv p (ls ++ [lb]) s' := by
    intro c0 z e hi hk
    refine ⟨?_, fun t f c wr hf he => mem (h.started t f c wr (by rw [e] at hf; exact hf) he), ?_⟩
    · rw [e]
      intro t f c wr x hf ho he hx
      have hne : c ≠ c0 := by rintro rfl; exact hi t f hf ho
      exact h.leaves t f c wr x hf ho he (by rw [← hx]; exact (setConn_ne hne).symm)
    · rw [e]
      intro t f c x hf ho hx
      have hne : c ≠ c0 := by rintro rfl; exact hi t f hf ho
      exact rdy (fun e' h' => ⟨(hk c hne).1.trans h', (hk c hne).2⟩)
        (h.ready t f c x hf ho (by rw [← hx]; exact (setConn_ne hne).symm))
  have iter : ∀ t c wr x (k : Task σ), lb = .server (.start t (.iterate c wr)) → s.cfg.conns c = some x →
      k.Leaves (After p wr x) → Ready p s c x → s'.buf = s.buf → s'.ended = s.ended →
      s'.cfg = s.cfg.put t (some (Flight.start (.iterate c wr) (some c) k)) → LInv p (ls ++ [lb]) s' := by
    intro t c wr x k hlb hx hk hrd hbuf hend e
    have rdy' : ∀ {c x}, Ready p s c x → Ready p s' c x := fun hr =>
      rdy (fun e0 h0 => ⟨by rw [hend]; exact h0, by rw [hbuf]⟩) hr
    refine ⟨?_, ?_, ?_⟩
    · rw [e]
      intro u f c' wr' x' hf ho he hx'
      by_cases eu : u = t
      · subst eu
        simp only [Cfg.put, upd_self, Option.some.injEq] at hf
        subst hf
        cases he
        rw [show s.cfg.conns c = some x' from hx'] at hx; cases hx
        exact hk
      · simp only [Cfg.put, upd_ne _ _ eu] at hf
        exact h.leaves u f c' wr' x' hf ho he hx'
    · rw [e]
      intro u f c' wr' hf he
      by_cases eu : u = t
      · subst eu
        simp only [Cfg.put, upd_self, Option.some.injEq] at hf
        subst hf
        cases he
        exact ⟨u, by rw [hlb]; simp⟩
      · simp only [Cfg.put, upd_ne _ _ eu] at hf
        exact mem (h.started u f c' wr' hf he)
    · rw [e]
      intro u f c' x' hf ho hx'
      by_cases eu : u = t
      · subst eu
        simp only [Cfg.put, upd_self, Option.some.injEq] at hf
        subst hf
        cases ho
        rw [show s.cfg.conns c = some x' from hx'] at hx; cases hx
        exact rdy' hrd
      · simp only [Cfg.put, upd_ne _ _ eu] at hf
        exact rdy' (h.ready u f c' x' hf ho hx')
  have other : ∀ lb0 cfg', Cfg.Step env p s.cfg lb0 cfg' → (∀ c i, lb0 ≠ .outside (.connect c i)) →
      (∀ t c w, lb0 ≠ .start t (.iterate c w)) → s'.cfg = cfg' → s'.buf = s.buf → s'.ended = s.ended →
      LInv p (ls ++ [lb]) s' := by
    intro lb0 cfg' st0 h1 h2 e hbuf hend
    rw [← e] at st0
    have old : ∀ t g c wr, s'.cfg.flights t = some g → g.ev = .iterate c wr →
        ∃ f, s.cfg.flights t = some f ∧ g.ev = f.ev ∧ g.owner = f.owner ∧ CodeStep f.code f.held g.code g.held := by
      intro t g c wr hg he
      rcases flight_step st0 hg with hf | ⟨hn, _, ⟨c', w', x', rfl, _⟩ | ⟨d, rfl⟩ | ⟨i, rfl⟩⟩
      · exact hf
      · exfalso
        by_cases hp : prog lb0 = some t
        · obtain ⟨g, hl, hg'⟩ := first_step st0 hn hp
          rw [hg] at hg'; cases hg'
          exact h2 _ _ _ hl
        · rw [flights_other st0 hp, hn] at hg; simp at hg
      · simp [Flight.start] at he
      · simp [Flight.start] at he
    refine ⟨fun t g c wr x hg ho he hx => ?_, fun t g c wr hg he => ?_, fun t g c x hg ho hx => ?_⟩
    · obtain ⟨f, hf, h3, h4, h5⟩ := old t g c wr hg he
      obtain ⟨f', hf', _, _, hcn⟩ := step_flight hown st0 h1 h2 t g c hg ho
      exact Leaves_step h5 (h.leaves t f c wr x hf (h4 ▸ ho) (h3 ▸ he) (by rw [← hcn]; exact hx))
    · obtain ⟨f, hf, h3, _⟩ := old t g c wr hg he
      exact mem (h.started t f c wr hf (h3 ▸ he))
    · obtain ⟨f', hf', h3, _, hcn⟩ := step_flight hown st0 h1 h2 t g c hg ho
      exact rdy (fun e0 h0 => ⟨by rw [hend]; exact h0, by rw [hbuf]⟩)
        (h.ready t f' c x hf' h3 (by rw [← hcn]; exact hx))
  cases st with
  | connect c hc =>
    exact conn c _ rfl (fun t f hf ho => by
      obtain ⟨x, hx, _⟩ := hT.owned hf ho
      rw [hc] at hx; simp at hx) (fun _ _ => ⟨rfl, rfl⟩)
  | arrive c bs hc he =>
    refine same rfl (fun c' e' h' => ⟨h', upd_ne _ _ ?_⟩)
    rintro rfl; rw [he] at h'; simp at h'
  | hangup c e hc he =>
    refine same rfl (fun c' e' h' => ⟨(upd_ne _ _ ?_).trans h', rfl⟩)
    rintro rfl; rw [he] at h'; simp at h'
  | take c x bs rest hc hi hb => exact conn c _ rfl hi (fun c' h' => ⟨rfl, upd_ne _ _ h'⟩)
  | iterate t c w x ht hc hr hi hd => exact iter t c w x _ rfl hc (iterTask_after env p x w hr) (.inl hd) rfl rfl rfl
  | iterateEnd t c w x e ht hc hr hi he hb =>
    exact iter t c w x _ rfl hc (iterTask_after env p { x with input := ⟨x.input.bytes, e⟩ } w hr)
      (.inr ⟨⟨e, he⟩, hb⟩) rfl rfl rfl
  | piece t c f k y bs ht ho hk hy hp => exact same rfl (fun _ _ h' => ⟨h', rfl⟩)
  | sent t c f k y ht ho hk hy hp => exact other _ _ (.send s.cfg t f k ht hk) (by simp) (by simp) rfl rfl rfl
  | other lb0 cfg' st0 h1 h2 h3 => exact other _ _ st0 h1 h2 rfl rfl rfl

theorem LInv.reach {σ} {env : Env σ} {p : Profile} {devices : List Device} {w : World σ} {ls : List (TcpLabel σ)}
    {s : Tcp σ} (h : Tcp.Reach env p (Tcp.init devices w) ls s) : LInv p ls s := by
  induction h with
  | refl => exact ⟨fun t f c wr x h => by simp [Tcp.init, Cfg.init] at h, fun t f c wr h => by simp [Tcp.init, Cfg.init] at h,
    fun t f c x h => by simp [Tcp.init, Cfg.init] at h⟩
  | tail h st ih => exact ih.step (TInv.reach h) st

/-! ## One connection in one step -/

/-- Connection `c` is where it was, except for bytes that have arrived and bytes that were taken. -/
structure Kept {σ} (c : Nat) (s s' : Tcp σ) (x x' : Conn) : Prop where
  status : x'.status = x.status
  current : x'.current = x.current
  output : x'.output = x.output
  served : x'.served = x.served
  grows : x.input.bytes <+: x'.input.bytes
  bytes : ∃ more, x'.input.bytes ++ s'.buf c = x.input.bytes ++ s.buf c ++ more ∧ (s.ended c ≠ none → more = [])
  ended : ∀ e, s.ended c = some e → s'.ended c = some e

theorem Kept.same {σ} {c : Nat} {s s' : Tcp σ} (x : Conn) (hb : s'.buf c = s.buf c) (he : s'.ended c = s.ended c) :
    Kept c s s' x x :=
  ⟨rfl, rfl, rfl, rfl, List.prefix_rfl, ⟨[], by rw [hb, List.append_nil], fun _ => rfl⟩, fun e h => he ▸ h⟩

theorem Kept.trans {σ} {c : Nat} {s s' s'' : Tcp σ} {x x' x'' : Conn} (h : Kept c s s' x x') (h' : Kept c s' s'' x' x'') :
    Kept c s s'' x x'' := by
  obtain ⟨m1, e1, n1⟩ := h.bytes
  obtain ⟨m2, e2, n2⟩ := h'.bytes
  refine ⟨h'.status.trans h.status, h'.current.trans h.current, h'.output.trans h.output, h'.served.trans h.served,
    h.grows.trans h'.grows, ⟨m1 ++ m2, by rw [e2, e1, List.append_assoc], fun hn => ?_⟩, fun e he => h'.ended e (h.ended e he)⟩
  rw [n1 hn, n2 (fun h0 => hn ?_), List.append_nil]
  cases he : s.ended c with
  | none => rfl
  | some e => rw [h.ended e he] at h0; simp at h0

/-- Connection `c`'s iteration ends in this step. -/
def TurnEnds {σ} (p : Profile) (c : Nat) (ls : List (TcpLabel σ)) (s s' : Tcp σ) (x y : Conn) : Prop :=
  s'.cfg.conns c = some y ∧ s'.cfg.idle c ∧ s'.buf c = s.buf c ∧ s'.ended c = s.ended c ∧
  Ready p s c x ∧ ∃ wr, After p wr x y ∧ ∃ u, TcpLabel.server (.start u (.iterate c wr)) ∈ ls

/-- The task of connection `c` is dropped in this step. -/
def TurnDrops {σ} (c : Nat) (lb : TcpLabel σ) (s s' : Tcp σ) (x y : Conn) : Prop :=
  s'.cfg.conns c = some y ∧ s'.cfg.idle c ∧ y = { x with status := .cancelled } ∧ Fault c lb

section
variable {σ : Type} {env : Env σ} {p : Profile} {devices : List Device} {w : World σ} {ls : List (TcpLabel σ)}
  {s s' : Tcp σ} {lb : TcpLabel σ}

theorem gone_idle (hT : TInv env p devices w ls s) {t c : Nat} {f : Flight σ} (hf : s.cfg.flights t = some f)
    (ho : f.owner = some c) (hfl : s'.cfg.flights = upd s.cfg.flights t none) : s'.cfg.idle c := by
  intro u g hg hgo
  rw [hfl] at hg
  by_cases e : u = t
  · subst e; rw [upd_self] at hg; simp at hg
  · rw [upd_ne _ _ e] at hg
    exact e (hT.owners hg hf hgo ho)

theorem ended_conn (hT : TInv env p devices w ls s) (hL : LInv p ls s) {t c : Nat} {f : Flight σ} {x : Conn}
    (hf : s.cfg.flights t = some f) (ho : f.owner = some c) (hx : s.cfg.conns c = some x)
    (st : Tcp.Step env p s (.server (.ended t)) s') : ∃ y, TurnEnds p c ls s s' x y := by
  cases st with
  | other lb0 cfg' st0 h1 h2 h3 =>
    cases st0 with
    | finish _ g z hg hk =>
      rw [hf] at hg; cases hg
      rcases hT.kind hf with ⟨c', wr, hev, ho'⟩ | ⟨_, ho'⟩
      · rw [ho] at ho'; cases ho'
        have hl := hL.leaves t f c wr x hf ho hev hx
        rw [hk] at hl
        obtain ⟨y, rfl, hy⟩ := hl
        exact ⟨y, by simp [finished, ho, setConn], gone_idle hT hf ho rfl, rfl, rfl,
          hL.ready t f c x hf ho hx, wr, hy,
          hL.started t f c wr hf hev⟩
      · rw [ho] at ho'; simp at ho'

theorem dropped_conn (hT : TInv env p devices w ls s) {t c : Nat} {f : Flight σ} {x : Conn} {o : Option Nat}
    (hf : s.cfg.flights t = some f) (ho : f.owner = some c) (hx : s.cfg.conns c = some x)
    (st : Tcp.Step env p s (.server (.dropped t o)) s') :
    ∃ y, TurnDrops c (.server (.dropped t o) : TcpLabel σ) s s' x y := by
  cases st with
  | other lb0 cfg' st0 h1 h2 h3 =>
    cases st0 with
    | abandon _ g hg hc =>
      rw [hf] at hg; cases hg
      exact ⟨_, by simp [dropped, ho, hx, setConn], gone_idle hT hf ho rfl, rfl, ho⟩

theorem take_step {c : Nat} {x : Conn} (st : Tcp.Step env p s (.take c) s') (hx : s.cfg.conns c = some x) :
    ∃ bs rest, s.buf c = bs ++ rest ∧ s'.buf c = rest ∧
      s'.cfg.conns c = some { x with input := ⟨x.input.bytes ++ bs, x.input.fin⟩ } := by
  cases st with
  | take _ x0 bs rest hc hi hb =>
    rw [hx] at hc; cases hc
    exact ⟨bs, rest, hb, upd_self _ _ _, if_pos rfl⟩

theorem started_flight {t c : Nat} {wr : WriteRes} (st : Tcp.Step env p s (.server (.start t (.iterate c wr))) s') :
    ∃ f, s'.cfg.flights t = some f ∧ f.owner = some c := by
  cases st with
  | iterate => exact ⟨_, upd_self _ _ _, rfl⟩
  | iterateEnd => exact ⟨_, upd_self _ _ _, rfl⟩
  | other _ _ st h1 h2 h3 => exact absurd rfl (h2 _ _ _)

theorem conn_step (hT : TInv env p devices w ls s) (hL : LInv p ls s) (st : Tcp.Step env p s lb s') {c : Nat} {x : Conn}
    (hx : s.cfg.conns c = some x) :
    (∃ x', s'.cfg.conns c = some x' ∧ Kept c s s' x x') ∨ (∃ y, TurnEnds p c ls s s' x y) ∨ ∃ y, TurnDrops c lb s s' x y := by
  have same : s'.cfg.conns c = s.cfg.conns c → s'.buf c = s.buf c → s'.ended c = s.ended c →
      (∃ x', s'.cfg.conns c = some x' ∧ Kept c s s' x x') := fun h1 h2 h3 => ⟨x, h1.trans hx, .same x h2 h3⟩
  have hst := st
  cases st with
  | connect c' hc =>
    have : c ≠ c' := by rintro rfl; rw [hx] at hc; simp at hc
    exact .inl (same (setConn_ne this) rfl rfl)
  | arrive c' bs hc he =>
    refine .inl ⟨x, hx, ?_⟩
    by_cases e : c = c'
    · subst e
      exact ⟨rfl, rfl, rfl, rfl, List.prefix_rfl, ⟨bs, by simp [upd_self], fun h => absurd he h⟩, fun _ h => h⟩
    · exact .same x (upd_ne _ _ e) rfl
  | hangup c' e hc he =>
    refine .inl ⟨x, hx, rfl, rfl, rfl, rfl, List.prefix_rfl, ⟨[], by simp, fun _ => rfl⟩, fun e' h => ?_⟩
    have : c ≠ c' := by rintro rfl; rw [he] at h; simp at h
    exact (upd_ne _ _ this).trans h
  | take c' x0 bs rest hc hi hb =>
    by_cases e : c = c'
    · subst e
      rw [hx] at hc; cases hc
      refine .inl ⟨_, if_pos rfl, rfl, rfl, rfl, rfl, List.prefix_append _ _, ⟨[], ?_, fun _ => rfl⟩, fun _ h => h⟩
      simp [upd_self, hb]
    · exact .inl (same (setConn_ne e) (upd_ne _ _ e) rfl)
  | iterate t c' w x0 ht hc hr hi hd => exact .inl (same rfl rfl rfl)
  | iterateEnd t c' w x0 e ht hc hr hi he hb => exact .inl (same rfl rfl rfl)
  | piece t c' f k y bs ht ho hk hy hp => exact .inl (same rfl rfl rfl)
  | sent t c' f k y ht ho hk hy hp => exact .inl (same rfl rfl rfl)
  | other lb0 cfg' st0 h1 h2 h3 =>
    cases st0 with
    | connect c' input hc => exact absurd rfl (h1 _ _)
    | iterate t c' w x ht hc hr hi => exact absurd rfl (h2 _ _ _)
    | finish t f z hf hk =>
      by_cases ho : f.owner = some c
      · exact .inr (.inl (ended_conn hT hL hf ho hx hst))
      · exact .inl (same (finished_ne ho) rfl rfl)
    | abandon t f hf hc =>
      by_cases ho : f.owner = some c
      · exact .inr (.inr (dropped_conn hT hf ho hx hst))
      · exact .inl (same (dropped_ne ho) rfl rfl)
    | cancel c' x0 hc hr hi =>
      by_cases e : c = c'
      · subst e
        rw [hx] at hc; cases hc
        exact .inr (.inr ⟨_, if_pos rfl, hi, rfl, rfl⟩)
      · exact .inl (same (setConn_ne e) rfl rfl)
    | _ => exact .inl (same rfl rfl rfl)

end

/-! ## The turn of a connection -/

section
variable {σ : Type} {env : Env σ} {p : Profile} {devices : List Device} {w : World σ}
  (e : TcpExec env p (Tcp.init devices w))

/-- The history up to time `n`. -/
def Spec.TcpExec.past (n : Nat) : List (TcpLabel σ) := (List.range n).map e.label

/-- On a connection on which `read_from_socket` is going to return, it returns; and what it leads to comes
to an end. -/
theorem Spec.TcpExec.turn (hfair : e.Fair)
    (hno : ∀ n t f i m k, (e.state n).cfg.flights t = some f → f.ev = .removeDevice i → f.code ≠ .lock .used m k)
    {n c : Nat} {x : Conn} (hx : (e.state n).cfg.conns c = some x) (hr : x.status = .running)
    (hin : (readCommand p : Rd Arrived Cmd) ⟨x.input.bytes ++ (e.state n).buf c⟩ ≠ .diverge ∨ (e.state n).ended c ≠ none) :
    ∃ m x' y, n ≤ m ∧ (e.state m).cfg.conns c = some x' ∧ Kept c (e.state n) (e.state m) x x' ∧
      (TurnEnds p c (e.past m) (e.state m) (e.state (m + 1)) x' y ∨
        TurnDrops c (e.label m) (e.state m) (e.state (m + 1)) x' y) := by
  refine Classical.byContradiction fun hnot => ?_
  -- it stays where it is
  have hkept : ∀ j, ∃ x', (e.state (n + j)).cfg.conns c = some x' ∧ Kept c (e.state n) (e.state (n + j)) x x' := by
    intro j
    induction j with
    | zero => exact ⟨x, hx, .same x rfl rfl⟩
    | succ j ih =>
      obtain ⟨x', hx', hk⟩ := ih
      rcases conn_step (e.inv (n + j)) (LInv.reach (e.reach (n + j))) (e.step (n + j)) hx' with
        ⟨x'', hx'', hk'⟩ | ⟨y, hy⟩ | ⟨y, hy⟩
      · exact ⟨x'', hx'', hk.trans hk'⟩
      · exact absurd ⟨n + j, x', y, by omega, hx', hk, .inl hy⟩ hnot
      · exact absurd ⟨n + j, x', y, by omega, hx', hk, .inr hy⟩ hnot
  have hkept' : ∀ m, n ≤ m → ∃ x', (e.state m).cfg.conns c = some x' ∧ Kept c (e.state n) (e.state m) x x' := by
    intro m hm
    obtain ⟨j, rfl⟩ := Nat.exists_eq_add_of_le hm
    exact hkept j
  -- nothing of it is in progress
  have hidle : ∀ m, n ≤ m → (e.state m).cfg.idle c := by
    intro m hm t f hf ho
    obtain ⟨m', g, hm', hl, hg, hgo, _⟩ := e.run.completes (H := e.run.all_move (e.works hfair) hno) 26 m t f hf
      (e.run.within m t f hf)
    obtain ⟨x', hx', hk⟩ := hkept' m' (by omega)
    have hlab : ∀ lb0, e.run.label m' = some lb0 → e.label m' = .server lb0 := by
      intro lb0 h
      change serverStep (e.label m') = some lb0 at h
      cases hl : e.label m' <;> rw [hl] at h <;> simp [serverStep] at h
      rw [h]
    rcases hl with hl | ⟨o, hl⟩
    · have st := e.step m'
      rw [hlab _ hl] at st
      obtain ⟨y, hy⟩ := ended_conn (e.inv m') (LInv.reach (e.reach m')) hg (hgo.trans ho) hx' st
      exact hnot ⟨m', x', y, by omega, hx', hk, .inl hy⟩
    · have st := e.step m'
      rw [hlab _ hl] at st
      obtain ⟨y, hy⟩ := dropped_conn (e.inv m') hg (hgo.trans ho) hx' st
      exact hnot ⟨m', x', y, by omega, hx', hk, .inr (by rw [hlab _ hl]; exact hy)⟩
  have hk2 : ∀ m, n ≤ m → ∀ z, (e.state m).cfg.conns c = some z → ∀ j, ∃ z', (e.state (m + j)).cfg.conns c = some z' ∧
      Kept c (e.state m) (e.state (m + j)) z z' := by
    intro m hm z hz j
    induction j with
    | zero => exact ⟨z, hz, .same z rfl rfl⟩
    | succ j ih =>
      obtain ⟨z1, hz1, hk1⟩ := ih
      obtain ⟨z0, hz0, hk0⟩ := hkept' (m + j) (by omega)
      obtain rfl : z0 = z1 := by rw [hz0] at hz1; exact Option.some.inj hz1
      rcases conn_step (e.inv (m + j)) (LInv.reach (e.reach (m + j))) (e.step (m + j)) hz0 with
        ⟨x'', hx'', hk'⟩ | ⟨y, hy⟩ | ⟨y, hy⟩
      · exact ⟨x'', hx'', hk1.trans hk'⟩
      · exact absurd ⟨m + j, z0, y, by omega, hz0, hk0, .inl hy⟩ hnot
      · exact absurd ⟨m + j, z0, y, by omega, hz0, hk0, .inr hy⟩ hnot
  -- the bytes are taken
  have hgrow : ∀ j, ∃ m x', n ≤ m ∧ (e.state m).cfg.conns c = some x' ∧
      min j (x.input.bytes ++ (e.state n).buf c).length ≤ x'.input.bytes.length := by
    intro j
    induction j with
    | zero => exact ⟨n, x, Nat.le_refl n, hx, by omega⟩
    | succ j ih =>
      obtain ⟨m, x', hm, hx', hj⟩ := ih
      obtain ⟨m', hm', h⟩ := hfair.reads c m
      obtain ⟨z, hz, hkz⟩ := hk2 m hm x' hx' (m' - m)
      rw [show m + (m' - m) = m' by omega] at hz hkz
      have hlen := hkz.grows.length_le
      rcases h with ⟨hl, hb⟩ | h
      · have st := e.step m'
        rw [hl] at st
        obtain ⟨bs, rest, h1, h2, h3⟩ := take_step st hz
        refine ⟨m' + 1, _, by omega, h3, ?_⟩
        have : bs ≠ [] := by rintro rfl; exact hb (by rw [h1, h2]; rfl)
        have := List.length_pos_iff.2 this
        simp only [List.length_append]
        simp only [List.length_append] at hj
        omega
      · refine ⟨m', z, by omega, hz, ?_⟩
        have hnil : (e.state m').buf c = [] := by
          refine Classical.byContradiction fun hne => h ⟨_, .take _ c z ((e.state m').buf c) [] hz (hidle m' (by omega))
            (by rw [List.append_nil]), ?_⟩
          dsimp only
          rw [upd_self]
          exact fun h => hne h.symm
        obtain ⟨z', hz', hk'⟩ := hkept' m' (by omega)
        rw [hz] at hz'; cases hz'
        obtain ⟨more, hmore, _⟩ := hk'.bytes
        rw [hnil, List.append_nil] at hmore
        have := congrArg List.length hmore
        simp only [List.length_append] at this ⊢
        omega
  obtain ⟨m0, x0, hm0, hx0, hlen0⟩ := hgrow (x.input.bytes ++ (e.state n).buf c).length
  obtain ⟨m, hm, h⟩ := hfair.loops c m0
  rcases h with ⟨t, wr, hl⟩ | h
  · have st := e.step m
    rw [hl] at st
    obtain ⟨f, hf, ho⟩ := started_flight st
    exact hidle (m + 1) (by omega) t f hf ho
  · obtain ⟨z, hz, hkz⟩ := hk2 m0 hm0 x0 hx0 (m - m0)
    rw [show m0 + (m - m0) = m by omega] at hz hkz
    obtain ⟨z', hz', hk'⟩ := hkept' m (by omega)
    rw [hz] at hz'; cases hz'
    obtain ⟨more, hmore, hnone⟩ := hk'.bytes
    have hlen := hkz.grows.length_le
    obtain ⟨N, hN⟩ := (e.inv m).finite
    have hpre : x.input.bytes ++ (e.state n).buf c <+: z.input.bytes :=
      List.prefix_of_prefix_length_le (l₃ := z.input.bytes ++ (e.state m).buf c)
        (by rw [hmore]; exact List.prefix_append _ _) (List.prefix_append _ _) (by omega)
    rcases hin with hin | hin
    · obtain ⟨more', hmore'⟩ := hpre
      refine h ⟨N, .full, _, .iterate _ N c .full z (hN N (Nat.le_refl N)) hz (hk'.status.trans hr)
        (hidle m (by omega)) ?_⟩
      rw [← hmore']
      exact other_ne_diverge p _ more' hin
    · cases he : (e.state n).ended c with
      | none => exact hin he
      | some er =>
        rw [hnone hin, List.append_nil] at hmore
        have hnil : (e.state m).buf c = [] := by
          have := congrArg List.length hmore
          rw [List.length_append] at this
          have h2 := hpre.length_le
          exact List.length_eq_zero_iff.1 (by omega)
        exact h ⟨N, .full, _, .iterateEnd _ N c .full z er (hN N (Nat.le_refl N)) hz (hk'.status.trans hr)
          (hidle m (by omega)) (hk'.ended er he) hnil⟩

end

/-! ## What the turn leads to -/

theorem outcome_bind_assoc {α β γ : Type} (o : Outcome α) (f : α → Outcome β) (g : β → Outcome γ) :
    ((o >>= f) >>= g) = (o >>= fun a => f a >>= g) := by
  cases o <;> rfl

/-- What is read from the bytes that have arrived does not depend on those that arrive later. -/
theorem arrived_more (p : Profile) (bs more : Bytes) (h : (readCommand p : Rd Arrived Cmd) ⟨bs⟩ ≠ .diverge) :
    (readCommand p : Rd Arrived Cmd) ⟨bs ++ more⟩
      = (readCommand p : Rd Arrived Cmd) ⟨bs⟩ >>= fun q => .ok (q.1, ⟨q.2.bytes ++ more⟩) := by
  have h1 := early_readCommand p bs
  have h2 := early_readCommand p (bs ++ more)
  have hd := other_ne_diverge p bs more h
  have key : ∀ o : Outcome (Cmd × Stream), readCommand p ⟨bs ++ more, .unexpectedEof⟩ = o →
      (match (readCommand p : Rd Arrived Cmd) ⟨bs ++ more⟩ with
        | .ok q => o = .ok (q.1, ⟨q.2.bytes, .unexpectedEof⟩)
        | .err e => o = .err e
        | .panic => o = .panic
        | .diverge => True) := by
    intro o ho
    cases hr : (readCommand p : Rd Arrived Cmd) ⟨bs ++ more⟩ with
    | ok q =>
      rw [hr] at h2
      have := h2 [] .unexpectedEof
      rw [List.append_nil, ho, List.append_nil] at this
      exact this
    | err e => rw [hr] at h2; have := h2 [] .unexpectedEof; rw [List.append_nil, ho] at this; exact this
    | panic => rw [hr] at h2; have := h2 [] .unexpectedEof; rw [List.append_nil, ho] at this; exact this
    | diverge => trivial
  cases hr : (readCommand p : Rd Arrived Cmd) ⟨bs⟩ with
  | diverge => exact absurd hr h
  | ok q =>
    rw [hr] at h1
    have := key _ (h1 more .unexpectedEof)
    cases hr' : (readCommand p : Rd Arrived Cmd) ⟨bs ++ more⟩ with
    | diverge => exact absurd hr' hd
    | ok q' =>
      rw [hr'] at this
      obtain ⟨c', ⟨b'⟩⟩ := q'
      simp only [Outcome.ok.injEq, Prod.mk.injEq, Stream.mk.injEq, and_true] at this
      show Outcome.ok _ = Outcome.ok _
      rw [← this.1, ← this.2]
    | err e' => rw [hr'] at this; simp at this
    | panic => rw [hr'] at this; simp at this
  | err e =>
    rw [hr] at h1
    have := key _ (h1 more .unexpectedEof)
    cases hr' : (readCommand p : Rd Arrived Cmd) ⟨bs ++ more⟩ with
    | diverge => exact absurd hr' hd
    | ok q' => rw [hr'] at this; simp at this
    | err e' => rw [hr'] at this; simp at this; rw [this]; rfl
    | panic => rw [hr'] at this; simp at this
  | panic =>
    rw [hr] at h1
    have := key _ (h1 more .unexpectedEof)
    cases hr' : (readCommand p : Rd Arrived Cmd) ⟨bs ++ more⟩ with
    | diverge => exact absurd hr' hd
    | ok q' => rw [hr'] at this; simp at this
    | err e' => rw [hr'] at this; simp at this
    | panic => rfl

/-- A whole packet that has arrived is read as its command. -/
theorem arrived_packet (p : Profile) (cmd : Cmd) (packet rest : Bytes) (hw : WellFormed p.debugAssertions cmd)
    (hpk : PacketFor cmd packet) : (readCommand p : Rd Arrived Cmd) ⟨packet ++ rest⟩ = .ok (cmd, ⟨rest⟩) := by
  have h1 := early_readCommand p (packet ++ rest)
  have h2 := readCommand_fwd p cmd packet rest .unexpectedEof hw hpk
  cases hr : (readCommand p : Rd Arrived Cmd) ⟨packet ++ rest⟩ with
  | ok q =>
    rw [hr] at h1
    have := h1 [] .unexpectedEof
    rw [List.append_nil, h2] at this
    obtain ⟨c', ⟨b'⟩⟩ := q
    simp only [Outcome.ok.injEq, Prod.mk.injEq, Stream.mk.injEq, and_true, List.append_nil] at this
    rw [this.1, this.2]
  | err e => rw [hr] at h1; have := h1 [] .unexpectedEof; rw [List.append_nil, h2] at this; simp at this
  | panic => rw [hr] at h1; have := h1 [] .unexpectedEof; rw [List.append_nil, h2] at this; simp at this
  | diverge => rw [hr] at h1; have := h1 .unexpectedEof; rw [h2] at this; simp at this

/-- A command that is read was sent as a packet. -/
theorem arrived_inv {p : Profile} {bs rest : Bytes} {cmd : Cmd}
    (h : (readCommand p : Rd Arrived Cmd) ⟨bs⟩ = .ok (cmd, ⟨rest⟩)) :
    WellFormed p.debugAssertions cmd ∧ ∃ packet, PacketFor cmd packet ∧ bs = packet ++ rest := by
  have h1 := early_readCommand p bs
  rw [h] at h1
  have := h1 [] .unexpectedEof
  rw [List.append_nil, List.append_nil] at this
  obtain ⟨hw, packet, hp, he⟩ := readCommand_inv this
  exact ⟨hw, packet, hp, by simpa using he⟩

theorem PacketFor_pos {cmd : Cmd} {packet : Bytes} (h : PacketFor cmd packet) : 0 < packet.length := by
  obtain ⟨v, hv, h⟩ := h
  have : v.length = 2 := by
    simp only [List.mem_cons, List.not_mem_nil, or_false] at hv
    rcases hv with rfl | rfl <;> rfl
  cases cmd with
  | unlink hd u => obtain ⟨pad, _, rfl⟩ := h; simp only [List.length_append]; omega
  | reqDevlist s => subst h; simp only [List.length_append]; omega
  | reqImport s b => subst h; simp only [List.length_append]; omega
  | submit => subst h; simp only [List.length_append]; omega

section
variable {σ : Type} {env : Env σ} {p : Profile} {devices : List Device} {w : World σ}
  (e : TcpExec env p (Tcp.init devices w))

/-- What happens next on a connection on which `read_from_socket` is going to return. -/
theorem Spec.TcpExec.next (hfair : e.Fair)
    (hno : ∀ n t f i m k, (e.state n).cfg.flights t = some f → f.ev = .removeDevice i → f.code ≠ .lock .used m k)
    {n c : Nat} {x : Conn} (hx : (e.state n).cfg.conns c = some x) (hr : x.status = .running)
    (hin : (readCommand p : Rd Arrived Cmd) ⟨x.input.bytes ++ (e.state n).buf c⟩ ≠ .diverge ∨ (e.state n).ended c ≠ none) :
    ∃ m y more, n < m ∧ (e.state m).cfg.conns c = some y ∧ (e.state m).cfg.idle c ∧ (e.state m).got c = y.output ∧
      (∀ er, (e.state n).ended c = some er → more = [] ∧ (e.state m).ended c = some er) ∧
      (Faulted e c m y ∨
      match (readCommand p : Rd Arrived Cmd) ⟨x.input.bytes ++ (e.state n).buf c⟩ with
      | .ok (cmd, rest) =>
        (∃ resp, AnswersNext p x y cmd resp ∧ y.input.bytes ++ (e.state m).buf c = rest.bytes ++ more) ∨
          y.status = .panicked
      | _ => Over y ∧ y.served = x.served ∧ y.output = x.output) := by
  obtain ⟨m, x', y, hm, hx', hk, h⟩ := e.turn hfair hno hx hr hin
  obtain ⟨more, hmore, hnil⟩ := hk.bytes
  have hgot : ∀ {y}, (e.state (m + 1)).cfg.conns c = some y → (e.state (m + 1)).cfg.idle c →
      (e.state (m + 1)).got c = y.output := by
    intro y hy hi
    have := (e.inv (m + 1)).idle c hi
    rw [this, hy]; rfl
  rcases h with ⟨hy, hi, hb, he, hrd, wr, ha, u, hu⟩ | ⟨hy, hi, rfl, hf⟩
  · refine ⟨m + 1, y, more, by omega, hy, hi, hgot hy hi, fun er her => ⟨hnil (by rw [her]; simp),
      he.trans (hk.ended er her)⟩, ?_⟩
    have hfault : wr ≠ .full → y.status ≠ .running → Faulted e c (m + 1) y := by
      intro hw hs
      obtain ⟨k, hk, hl⟩ := List.mem_map.1 hu
      refine ⟨hs, k, by have := List.mem_range.1 hk; omega, ?_⟩
      rw [hl]; exact ⟨rfl, hw⟩
    have hread : (readCommand p : Rd Arrived Cmd) ⟨x.input.bytes ++ (e.state n).buf c⟩ ≠ .diverge →
        ((readCommand p : Rd Arrived Cmd) ⟨x'.input.bytes⟩ >>= fun q => .ok (q.1, q.2.bytes ++ (e.state m).buf c))
          = ((readCommand p : Rd Arrived Cmd) ⟨x.input.bytes ++ (e.state n).buf c⟩ >>= fun q => .ok (q.1, q.2.bytes ++ more)) := by
      intro hd
      have h1 := arrived_more p _ more hd
      have h2 : (readCommand p : Rd Arrived Cmd) ⟨x'.input.bytes⟩ ≠ .diverge := by
        rcases hrd with h | ⟨_, h⟩
        · exact h
        · rw [h, List.append_nil] at hmore
          rw [hmore]; exact other_ne_diverge p _ more hd
      have h3 := arrived_more p _ ((e.state m).buf c) h2
      rw [hmore, h1] at h3
      have := congrArg (fun o : Outcome (Cmd × Arrived) => o >>= fun q => .ok (q.1, q.2.bytes)) h3
      simp only [outcome_bind_assoc, Outcome.bind_ok] at this
      exact this.symm
    have hover : (readCommand p : Rd Arrived Cmd) ⟨x.input.bytes ++ (e.state n).buf c⟩ = .diverge →
        (readCommand p : Rd Arrived Cmd) ⟨x'.input.bytes⟩ = .diverge := by
      intro hd
      have hne : (e.state n).ended c ≠ none := hin.resolve_left (fun h => h hd)
      refine Classical.byContradiction fun h2 => ?_
      have := other_ne_diverge p _ ((e.state m).buf c) h2
      rw [hmore, hnil hne, List.append_nil] at this
      exact this hd
    unfold After at ha
    cases ho : (readCommand p : Rd Arrived Cmd) ⟨x.input.bytes ++ (e.state n).buf c⟩ with
    | diverge =>
      rw [hover ho] at ha
      exact .inr ⟨ha.1, ha.2.1.trans hk.served, ha.2.2.trans hk.output⟩
    | ok q =>
      obtain ⟨cmd, ⟨rest⟩⟩ := q
      have h1 := hread (by rw [ho]; simp)
      rw [ho] at h1
      cases hx'' : (readCommand p : Rd Arrived Cmd) ⟨x'.input.bytes⟩ with
      | ok q' =>
        obtain ⟨cmd', ⟨rest'⟩⟩ := q'
        rw [hx''] at h1 ha
        simp only [Outcome.bind_ok, Outcome.ok.injEq, Prod.mk.injEq] at h1
        obtain ⟨rfl, h1⟩ := h1
        rcases ha with ⟨resp, ⟨a1, a2, b, a3, a4⟩, a5⟩ | ha | ⟨ha, hs⟩
        · exact .inr (.inl ⟨resp, ⟨a1, by rw [a2, hk.served], b, a3, by rw [a4, hk.output]⟩, by rw [a5, hb, h1]⟩)
        · exact .inr (.inr ha)
        · exact .inl (hfault ha hs)
      | err e => rw [hx''] at h1; simp [Bind.bind, Outcome.bind] at h1
      | panic => rw [hx''] at h1; simp [Bind.bind, Outcome.bind] at h1
      | diverge => rw [hx''] at h1; simp [Bind.bind, Outcome.bind] at h1
    | err er =>
      have h1 := hread (by rw [ho]; simp)
      rw [ho] at h1
      cases hx'' : (readCommand p : Rd Arrived Cmd) ⟨x'.input.bytes⟩ with
      | ok q' => rw [hx''] at h1; simp [Bind.bind, Outcome.bind] at h1
      | _ => rw [hx''] at ha; exact .inr ⟨ha.1, ha.2.1.trans hk.served, ha.2.2.trans hk.output⟩
    | panic =>
      have h1 := hread (by rw [ho]; simp)
      rw [ho] at h1
      cases hx'' : (readCommand p : Rd Arrived Cmd) ⟨x'.input.bytes⟩ with
      | ok q' => rw [hx''] at h1; simp [Bind.bind, Outcome.bind] at h1
      | _ => rw [hx''] at ha; exact .inr ⟨ha.1, ha.2.1.trans hk.served, ha.2.2.trans hk.output⟩
  · refine ⟨m + 1, _, [], by omega, hy, hi, hgot hy hi, fun er her => ⟨rfl, ?_⟩, .inl ⟨by simp, m, by omega, hf⟩⟩
    have := hk.ended er her
    have st := e.step m
    generalize e.state (m + 1) = s' at st
    generalize e.label m = lb at st hf
    cases st with
    | hangup c' e' hc he0 =>
      exact absurd hf id
    | _ => exact this

end

theorem AnswersAll_cons {p : Profile} {x y z : Conn} {cmd : Cmd} {resp : Resp} {cmds : List Cmd}
    (h : AnswersNext p x y cmd resp) (h' : AnswersAll p y z cmds) : AnswersAll p x z (cmd :: cmds) := by
  obtain ⟨_, h1, b, h2, h3⟩ := h
  obtain ⟨rs, bs, h4, h5, h6, h7⟩ := h'
  refine ⟨resp :: rs, b :: bs, by simp [h4], ?_, by simp [h2, h6], ?_⟩
  · rw [h5, h1]; simp
  · rw [h7, h3]; simp

/-- The requests that have arrived, one after the other. -/
theorem served_all {σ} {env : Env σ} {p : Profile} {devices : List Device} {w : World σ}
    (e : TcpExec env p (Tcp.init devices w)) (hfair : e.Fair)
    (hno : ∀ n t f i m k, (e.state n).cfg.flights t = some f → f.ev = .removeDevice i → f.code ≠ .lock .used m k)
    (c : Nat) (qs : List (Cmd × Bytes)) (hq : Requests p qs) :
    ∀ (rest : Bytes) (n : Nat) (x : Conn), (e.state n).cfg.conns c = some x → x.status = .running →
      x.input.bytes ++ (e.state n).buf c = (qs.map (·.2)).flatten ++ rest →
      ∃ m y, n ≤ m ∧ (e.state m).cfg.conns c = some y ∧
      (qs ≠ [] ∨ y.status ≠ .running → n < m ∧ (e.state m).cfg.idle c ∧ (e.state m).got c = y.output) ∧
      ((∃ more, AnswersAll p x y (qs.map (·.1)) ∧ y.status = .running ∧
          y.input.bytes ++ (e.state m).buf c = rest ++ more ∧
          ∀ er, (e.state n).ended c = some er → more = [] ∧ (e.state m).ended c = some er) ∨
        y.status = .panicked ∨ Faulted e c m y) := by
  induction qs with
  | nil =>
    intro rest n x hx hr hb
    exact ⟨n, x, Nat.le_refl n, hx, fun h => by simp [hr] at h, .inl ⟨[], ⟨[], [], rfl, by simp, rfl, by simp⟩, hr,
      by simpa using hb, fun er h => ⟨rfl, h⟩⟩⟩
  | cons q qs ih =>
    intro rest n x hx hr hb
    obtain ⟨hw, hp⟩ := hq q (by simp)
    have hread := arrived_packet p q.1 q.2 ((qs.map (·.2)).flatten ++ rest) hw hp
    have hb' : x.input.bytes ++ (e.state n).buf c = q.2 ++ ((qs.map (·.2)).flatten ++ rest) := by
      rw [hb]; simp
    obtain ⟨m, y, more, hm, hy, hi, hg, hend, h⟩ := e.next hfair hno hx hr (.inl (by rw [hb', hread]; simp))
    rw [hb', hread] at h
    rcases h with h | ⟨resp, ha, hby⟩ | h
    · exact ⟨m, y, by omega, hy, fun _ => ⟨hm, hi, hg⟩, .inr (.inr h)⟩
    · have hby' : y.input.bytes ++ (e.state m).buf c = (qs.map (·.2)).flatten ++ (rest ++ more) := by
        rw [hby, List.append_assoc]
      cases qs with
      | nil =>
        refine ⟨m, y, by omega, hy, fun _ => ⟨hm, hi, hg⟩, .inl ⟨more, ?_, ha.1, by simpa using hby', hend⟩⟩
        exact AnswersAll_cons ha ⟨[], [], rfl, by simp, rfl, by simp⟩
      | cons q' qs =>
        obtain ⟨m', z, hm', hz, hiz, h⟩ := ih (fun q hq' => hq q (List.mem_cons_of_mem _ hq')) _ m y hy ha.1 hby'
        refine ⟨m', z, by omega, hz, fun _ => ?_, ?_⟩
        · obtain ⟨h1, h2⟩ := hiz (.inl (by simp))
          exact ⟨by omega, h2⟩
        rcases h with ⟨more', h1, h2, h3, h4⟩ | h
        · refine .inl ⟨more ++ more', AnswersAll_cons ha h1, h2, by rw [h3, List.append_assoc], fun er her => ?_⟩
          obtain ⟨e1, e2⟩ := hend er her
          obtain ⟨e3, e4⟩ := h4 er e2
          exact ⟨by rw [e1, e3]; rfl, e4⟩
        · exact .inr h
    · exact ⟨m, y, by omega, hy, fun _ => ⟨hm, hi, hg⟩, .inr (.inl h)⟩

theorem AnswersAll_over {p : Profile} {x y z : Conn} {cmds : List Cmd} (h : AnswersAll p x y cmds)
    (hs : z.served = y.served) (ho : z.output = y.output) : AnswersAll p x z cmds := by
  obtain ⟨rs, bs, h1, h2, h3, h4⟩ := h
  exact ⟨rs, bs, h1, by rw [hs, h2], h3, by rw [ho, h4]⟩

/-- What a client has sent, as requests. -/
theorem split_requests (p : Profile) (bs : Bytes) :
    ∃ qs rest, Requests p qs ∧ bs = (qs.map (·.2)).flatten ++ rest ∧ NoRequest p rest := by
  induction hn : bs.length using Nat.strongRecOn generalizing bs with
  | ind n ih =>
    by_cases h : NoRequest p bs
    · exact ⟨[], bs, by simp [Requests], by simp, h⟩
    · simp only [NoRequest, ne_eq, Classical.not_forall, Classical.not_not] at h
      obtain ⟨cmd, packet, rest, hw, hp, rfl⟩ := h
      have := PacketFor_pos hp
      obtain ⟨qs, r, h1, h2, h3⟩ := ih rest.length (by rw [← hn, List.length_append]; omega) rest rfl
      refine ⟨(cmd, packet) :: qs, r, ?_, by rw [h2]; simp, h3⟩
      intro q hq
      rcases List.mem_cons.1 hq with rfl | hq
      · exact ⟨hw, hp⟩
      · exact h1 q hq

/-- A connection that is not running any more stays as it is, except for bytes taken from its socket. -/
theorem over_step {σ} {env : Env σ} {p : Profile} {s s' : Tcp σ} {lb : TcpLabel σ} (st : Tcp.Step env p s lb s')
    {c : Nat} {x : Conn} (hx : s.cfg.conns c = some x) (hr : x.status ≠ .running) (hi : s.cfg.idle c) :
    s'.cfg.idle c ∧ s'.got c = s.got c ∧
      ∃ y, s'.cfg.conns c = some y ∧ y.status = x.status ∧ y.current = x.current ∧ y.output = x.output ∧
        y.served = x.served := by
  have same : s'.cfg.idle c → s'.got c = s.got c → s'.cfg.conns c = s.cfg.conns c → s'.cfg.idle c ∧ s'.got c = s.got c ∧
      ∃ y, s'.cfg.conns c = some y ∧ y.status = x.status ∧ y.current = x.current ∧ y.output = x.output ∧
        y.served = x.served := fun h1 h2 h3 => ⟨h1, h2, x, h3.trans hx, rfl, rfl, rfl, rfl⟩
  have start : ∀ {t c'} {f : Flight σ} {x' : Conn}, s.cfg.conns c' = some x' → x'.status = .running → f.owner = some c' →
      (s.cfg.put t (some f)).idle c := by
    intro t c' f x' hc hr' ho u g hg hgo
    by_cases e : u = t
    · subst e
      simp only [Cfg.put, upd_self, Option.some.injEq] at hg
      subst hg
      rw [ho] at hgo; cases hgo
      rw [hx] at hc; cases hc
      exact hr hr'
    · simp only [Cfg.put, upd_ne _ _ e] at hg
      exact hi u g hg hgo
  have idle : ∀ {lb cfg'}, Cfg.Step env p s.cfg lb cfg' → cfg'.idle c := by
    intro lb cfg' st u g hg hgo
    rcases flight_step st hg with ⟨f, hf, _, ho, _⟩ | ⟨_, _, ⟨c', w', x', rfl, hc, hr', _⟩ | ⟨d, rfl⟩ | ⟨i, rfl⟩⟩
    · exact hi u f hf (ho ▸ hgo)
    · cases hgo
      rw [hx] at hc; cases hc
      exact hr hr'
    · cases hgo
    · cases hgo
  cases st with
  | connect c' hc =>
    have : c ≠ c' := by rintro rfl; rw [hx] at hc; simp at hc
    exact same hi rfl (setConn_ne this)
  | arrive c' bs hc he => exact same hi rfl rfl
  | hangup c' e hc he => exact same hi rfl rfl
  | take c' x0 bs rest hc hi' hb =>
    by_cases e : c = c'
    · subst e
      rw [hx] at hc; cases hc
      exact ⟨hi, rfl, _, if_pos rfl, rfl, rfl, rfl, rfl⟩
    · exact same hi rfl (setConn_ne e)
  | iterate t c' w x0 ht hc hr' hi' hd => exact same (start hc hr' rfl) rfl rfl
  | iterateEnd t c' w x0 e ht hc hr' hi' he hb => exact same (start hc hr' rfl) rfl rfl
  | piece t c' f k y bs ht ho hk hy hp =>
    have : c ≠ c' := by rintro rfl; exact hi t f ht ho
    exact same hi (upd_ne _ _ this) rfl
  | sent t c' f k y ht ho hk hy hp => exact same (idle (.send s.cfg t f k ht hk)) rfl rfl
  | other lb0 cfg' st0 h1 h2 h3 =>
    have hi2 := idle st0
    cases st0 with
    | connect c' input hc => exact absurd rfl (h1 _ _)
    | finish t f z hf hk => exact same hi2 rfl (finished_ne (hi t f hf))
    | abandon t f hf hc => exact same hi2 rfl (dropped_ne (hi t f hf))
    | cancel c' x0 hc hr' hi' =>
      have : c ≠ c' := by rintro rfl; rw [hx] at hc; cases hc; exact hr hr'
      exact same hi2 rfl (setConn_ne this)
    | _ => exact same hi2 rfl rfl

theorem Spec.TcpExec.stays_over {σ} {env : Env σ} {p : Profile} {s0 : Tcp σ} (e : TcpExec env p s0) {n c : Nat} {x : Conn}
    (hx : (e.state n).cfg.conns c = some x) (hr : x.status ≠ .running) (hi : (e.state n).cfg.idle c) {m : Nat} (hm : n ≤ m) :
    (e.state m).cfg.idle c ∧ (e.state m).got c = (e.state n).got c ∧
      ∃ y, (e.state m).cfg.conns c = some y ∧ y.status = x.status ∧ y.current = x.current ∧ y.output = x.output ∧
        y.served = x.served := by
  obtain ⟨j, rfl⟩ := Nat.exists_eq_add_of_le hm
  clear hm
  induction j with
  | zero => exact ⟨hi, rfl, x, hx, rfl, rfl, rfl, rfl⟩
  | succ j ih =>
    obtain ⟨h1, h2, y, h3, h4, h5, h6, h7⟩ := ih
    obtain ⟨g1, g2, z, g3, g4, g5, g6, g7⟩ := over_step (e.step (n + j)) h3 (by rw [h4]; exact hr) h1
    exact ⟨g1, g2.trans h2, z, g3, g4.trans h4, g5.trans h5, g6.trans h6, g7.trans h7⟩

/-! ## Executions that come to rest -/

/-- An execution with one more step in front. -/
def Spec.TcpExec.cons {σ} {env : Env σ} {p : Profile} {s s' : Tcp σ} {lb : TcpLabel σ}
    (st : Tcp.Step env p s lb s') (e : TcpExec env p s') : TcpExec env p s where
  state n := match n with | 0 => s | n + 1 => e.state n
  label n := match n with | 0 => lb | n + 1 => e.label n
  init := rfl
  step n := match n with
    | 0 => by dsimp only; rw [e.init]; exact st
    | n + 1 => e.step n

/-- Nothing happens any more. -/
def Spec.TcpExec.rest {σ} (env : Env σ) (p : Profile) (s : Tcp σ) : TcpExec env p s where
  state _ := s
  label _ := .server (.outside (.user id))
  init := rfl
  step _ := .other s _ _ (.user s.cfg id none) (by simp) (by simp) (by simp)

theorem Spec.TcpExec.after {σ} {env : Env σ} {p : Profile} {s0 s : Tcp σ} {ls : List (TcpLabel σ)}
    (h : Tcp.Reach env p s0 ls s) : ∀ e : TcpExec env p s, ∃ e' : TcpExec env p s0,
      (∀ k, e'.state (ls.length + k) = e.state k) ∧ (∀ k, e'.label (ls.length + k) = e.label k) ∧
      ∀ k, k < ls.length → e'.label k ∈ ls := by
  induction h with
  | refl => exact fun e => ⟨e, fun k => by simp, fun k => by simp, fun k hk => by simp at hk⟩
  | @tail ls s lb s' h st ih =>
    intro e
    obtain ⟨e', h1, h2, h3⟩ := ih (e.cons st)
    refine ⟨e', fun k => ?_, fun k => ?_, fun k hk => ?_⟩
    · rw [List.length_append, List.length_singleton, Nat.add_assoc, Nat.add_comm 1 k, h1]; rfl
    · rw [List.length_append, List.length_singleton, Nat.add_assoc, Nat.add_comm 1 k, h2]; rfl
    · rw [List.length_append, List.length_singleton] at hk
      by_cases hlt : k < ls.length
      · exact List.mem_append_left _ (h3 k hlt)
      · have : k = ls.length := by omega
        subst this
        rw [show e'.label ls.length = e'.label (ls.length + 0) from rfl, h2]
        simp [Spec.TcpExec.cons]

/-- An execution that comes to rest is fair if then nothing is left to do. -/
theorem Spec.TcpExec.rest_fair {σ} {env : Env σ} {p : Profile} {s0 s : Tcp σ} (e : TcpExec env p s0) (N : Nat)
    (hs : ∀ m, N ≤ m → e.state m = s) (C : Nat → Prop)
    (tasks : ∀ t lb s', Tcp.Step env p s (.server lb) s' → Advances lb → prog lb ≠ some t)
    (reads : ∀ c s', Tcp.Step env p s (.take c) s' → s'.buf c = s.buf c)
    (loops : ∀ c t w s', ¬ Tcp.Step env p s (.server (.start t (.iterate c w))) s')
    (clients : ∀ c, C c → ∀ b s', ¬ Tcp.Step env p s (.piece c [b]) s') : e.FairFor C := by
  refine ⟨fun t n => ⟨max n N, by omega, .inr ?_⟩, fun c n => ⟨max n N, by omega, .inr ?_⟩,
    fun c n => ⟨max n N, by omega, .inr ?_⟩, fun c hc n => ⟨max n N, by omega, .inr ?_⟩⟩ <;> rw [hs _ (by omega)]
  · rintro ⟨lb, s', st, ha, hp⟩; exact tasks t lb s' st ha hp
  · rintro ⟨s', st, hb⟩; exact hb (reads c s' st)
  · rintro ⟨t, w, s', st⟩; exact loops c t w s' st
  · rintro ⟨b, s', st⟩; exact clients c hc b s' st

/-- If `remove_device` is never called, no call of it waits. -/
theorem Spec.TcpExec.no_removals {σ} {env : Env σ} {p : Profile} {devices : List Device} {w : World σ}
    (e : TcpExec env p (Tcp.init devices w)) (h : ∀ n t i, e.label n ≠ .server (.start t (.removeDevice i))) :
    ∀ n t f i m k, (e.state n).cfg.flights t = some f → f.ev = .removeDevice i → f.code ≠ .lock .used m k := by
  intro n
  suffices H : ∀ t f i, (e.state n).cfg.flights t = some f → f.ev ≠ .removeDevice i from
    fun t f i m k hf hev => absurd hev (H t f i hf)
  induction n with
  | zero => intro t f i hf; rw [e.init] at hf; simp [Tcp.init, Cfg.init] at hf
  | succ n ih =>
    intro t f i hf hev
    have st := tcp_flightStep (e.step n)
    cases hl : serverStep (e.label n) with
    | none =>
      rw [hl] at st
      rw [st.1] at hf
      exact ih t f i hf hev
    | some lb =>
      rw [hl] at st
      have hlab : e.label n = .server lb := by
        cases hl' : e.label n <;> rw [hl'] at hl <;> simp [serverStep] at hl
        rw [hl]
      obtain ⟨a, b, st, ha, _, hb, _⟩ := st
      rw [← hb] at hf
      by_cases hp : prog lb = some t
      · cases hn : a.flights t with
        | some f' =>
          rcases flight_step st hf with ⟨f', hf', he, _⟩ | ⟨hn', _⟩
          · exact ih t f' i (by rw [← ha]; exact hf') (he ▸ hev)
          · rw [hn] at hn'; simp at hn'
        | none =>
          obtain ⟨g, hl', hg⟩ := first_step st hn hp
          rw [hf] at hg; cases hg
          exact h n t i (by rw [hlab, hl', hev])
      · rw [flights_other st hp] at hf
        exact ih t f i (by rw [← ha]; exact hf) hev

end Usbip
