import Verif.Model.Whole
import Verif.Lemmas.Mutex
import Verif.Lemmas.TcpRealise
/-! Helper lemmas: handler code, locks and sockets together. -/

namespace Usbip
open Spec

/-- Change the world of a server on sockets. -/
def Tcp.withWorld {σ} (s : Tcp σ) (w : World σ) : Tcp σ := { s with cfg := s.cfg.withWorld w }

theorem hearCode_commit {σ} {m : Nat → Stream} {o : Option Nat} {g : World σ → World σ} {k : World σ → Task σ} :
    ∃ k', hearCode m o (.commit g k) = .commit g k' := by
  cases o
  · exact ⟨_, rfl⟩
  · exact ⟨_, rfl⟩

theorem hearCode_getUsed {σ} {m : Nat → Stream} {o : Option Nat} {k : List (Bytes × Device) → Task σ} :
    ∃ k', hearCode m o (.getUsed k) = .getUsed k' := by
  cases o
  · exact ⟨_, rfl⟩
  · exact ⟨_, rfl⟩

theorem hearCode_putUsed {σ} {m : Nat → Stream} {o : Option Nat} {v : List (Bytes × Device)} {k : Task σ} :
    ∃ k', hearCode m o (.putUsed v k) = .putUsed v k' := by
  cases o
  · exact ⟨_, rfl⟩
  · exact ⟨_, rfl⟩

theorem tcp_tame {σ} {env : Env σ} {p : Profile} {devices : List Device} {w : World σ}
    {ls : List (TcpLabel σ)} {s : Tcp σ} (h : Tcp.Reach env p (Tcp.init devices w) ls s) : Tame s.cfg := by
  have hT := TInv.reach h
  obtain ⟨ls', hr, _, _⟩ := hT.fore _ (someFuture_possible s)
  have hI := (CInv.reach hr).tame
  refine ⟨fun t u f g hne ht hu hw => ?_, fun t f k ht hk => ?_, fun t f v k ht hk => ?_, fun t f g k ht hk => ?_,
    fun t u f g c ht hu hf hg => hT.owners ht hu hf hg, fun t f c ht hc => ?_⟩
  · have := hI.excl t u _ _ hne (hearing_flight ht) (hearing_flight hu) hw
    exact this
  · obtain ⟨k', hk'⟩ := hearCode_getUsed (m := inSocket s (someFuture s)) (o := f.owner) (k := k)
    have := hI.get t _ k' (hearing_flight ht) (by dsimp only; rw [hk]; exact hk')
    exact this
  · obtain ⟨k', hk'⟩ := hearCode_putUsed (m := inSocket s (someFuture s)) (o := f.owner) (v := v) (k := k)
    have := hI.put t _ v k' (hearing_flight ht) (by dsimp only; rw [hk]; exact hk')
    exact this
  · obtain ⟨k', hk'⟩ := hearCode_commit (m := inSocket s (someFuture s)) (o := f.owner) (g := g) (k := k)
    have := hI.once t _ g k' (hearing_flight ht) (by dsimp only; rw [hk]; exact hk')
    exact this
  · obtain ⟨x, hx, _⟩ := hT.owned ht hc
    exact ⟨x, hx⟩

/-- How the stream ends does not matter for the call of a command that has arrived. -/
theorem call_fin (p : Profile) (x : Conn) (e : ErrKind) (u : List (Bytes × Device)) :
    Conn.call p { x with input := ⟨x.input.bytes, e⟩ } u = x.call p u := by
  have h := early_readCommand p x.input.bytes
  have hx : x.input = ⟨x.input.bytes ++ [], x.input.fin⟩ := by rw [List.append_nil]
  have hy : (⟨x.input.bytes, e⟩ : Stream) = ⟨x.input.bytes ++ [], e⟩ := by rw [List.append_nil]
  unfold Conn.call
  dsimp only
  cases hr : (readCommand p : Rd Arrived Cmd) ⟨x.input.bytes⟩ with
  | ok q =>
    obtain ⟨cmd, r⟩ := q
    rw [hr] at h
    have h1 := h [] x.input.fin
    have h2 := h [] e
    rw [← hx] at h1
    rw [← hy] at h2
    rw [h1, h2]
    cases cmd <;> rfl
  | err e' =>
    rw [hr] at h
    have h1 := h [] x.input.fin
    have h2 := h [] e
    rw [← hx] at h1
    rw [← hy] at h2
    rw [h1, h2]
  | panic =>
    rw [hr] at h
    have h1 := h [] x.input.fin
    have h2 := h [] e
    rw [← hx] at h1
    rw [← hy] at h2
    rw [h1, h2]
  | diverge =>
    rw [hr] at h
    have h1 := h x.input.fin
    have h2 := h e
    have hx' : x.input = ⟨x.input.bytes, x.input.fin⟩ := rfl
    rw [← hx'] at h1
    rw [h1, h2]

theorem CallsInv.start {σ} {env : Env σ} {p : Profile} {s : Cfg σ} (ih : CallsInv env p s) {t c : Nat}
    {wr : WriteRes} {x y : Conn} (ht : s.flights t = none) (hc : s.conns c = some x)
    (hy : ∀ u, y.call p u = x.call p u) :
    CallsInv env p (s.put t (some (Flight.start (.iterate c wr) (some c) (iterTask env p y wr)))) := by
  intro t' f hf hcm u hu
  by_cases e : t' = t
  · subst e
    rw [put_same] at hf
    cases hf
    have : (s.put t' (some (Flight.start (.iterate c wr) (some c) (iterTask env p y wr)))).callOf p
        (Flight.start (.iterate c wr) (some c) (iterTask env p y wr)) = fun u => y.call p u := by
      funext v
      simp only [Cfg.callOf, Flight.start, Cfg.put, Option.bind_some, hc, hy]
    rw [this]
    exact iterTask_Calls env p y wr u
  · rw [put_ne _ _ e] at hf
    exact ih t' f hf hcm u hu

/-- A connection without a program in flight can change. -/
theorem CallsInv.conn {σ} {env : Env σ} {p : Profile} {s : Cfg σ} (ih : CallsInv env p s) {c : Nat} {y : Conn}
    (hi : ∀ t f, s.flights t = some f → f.owner ≠ some c) :
    CallsInv env p { s with conns := setConn s.conns c y } := by
  intro t f hf hcm u hu
  have : ({ s with conns := setConn s.conns c y } : Cfg σ).callOf p f = s.callOf p f := by
    funext v
    unfold Cfg.callOf
    cases ho : f.owner with
    | none => rfl
    | some c' =>
      have hne : c' ≠ c := fun e => hi t f hf (by rw [ho, e])
      simp only [Option.bind_some, setConn_ne hne]
  rw [this]
  exact ih t f hf hcm u hu

theorem tcp_calls {σ} {env : Env σ} {p : Profile} {devices : List Device} {w : World σ}
    {ls : List (TcpLabel σ)} {s : Tcp σ} (h : Tcp.Reach env p (Tcp.init devices w) ls s) : CallsInv env p s.cfg := by
  induction h with
  | refl => intro t f h; simp [Tcp.init, Cfg.init] at h
  | @tail ls s lb s' h st ih =>
    have hI := tcp_tame h
    cases st with
    | connect c hc =>
      exact ih.conn (fun t f hf ho => by
        obtain ⟨x, hx⟩ := hI.owner t f c hf ho
        rw [hc] at hx; simp at hx)
    | arrive c bs h he => exact ih
    | hangup c e h he => exact ih
    | take c x bs rest hc hi hb => exact ih.conn hi
    | iterate t c wr x ht hc hr hi hd => exact ih.start ht hc (fun _ => rfl)
    | iterateEnd t c wr x e ht hc hr hi he hb => exact ih.start ht hc (fun u => call_fin p x e u)
    | piece t c f k y bs ht ho hk hy hp => exact ih
    | sent t c f k y ht ho hk hy hp => exact ih.step hI (.send s.cfg t f k ht hk)
    | other lb cfg' st h1 h2 h3 => exact ih.step hI st

theorem tcp_covered {σ} {env : Env σ} {p : Profile} {devices : List Device} {w : World σ}
    {ls : List (TcpLabel σ)} {s : Tcp σ} (h : Tcp.Reach env p (Tcp.init devices w) ls s) : Covered env p s.cfg :=
  (tcp_calls h).covered (tcp_tame h)

/-- A step on the sockets does not depend on the handlers' state. -/
theorem tcp_step_world {σ} {env : Env σ} {p : Profile} {s s' : Tcp σ} {lb : TcpLabel σ}
    (st : Tcp.Step env p s lb s') (hl : ∀ l, lb = .server l → ¬ ofHandlers (some l)) (w : World σ) :
    s'.cfg.shared.world = s.cfg.shared.world ∧ Tcp.Step env p (s.withWorld w) lb (s'.withWorld w) := by
  cases st with
  | connect c hc => exact ⟨rfl, .connect (s.withWorld w) c hc⟩
  | arrive c bs h he => exact ⟨rfl, .arrive (s.withWorld w) c bs h he⟩
  | hangup c e h he => exact ⟨rfl, .hangup (s.withWorld w) c e h he⟩
  | take c x bs rest hc hi hb => exact ⟨rfl, .take (s.withWorld w) c x bs rest hc hi hb⟩
  | iterate t c wr x ht hc hr hi hd => exact ⟨rfl, .iterate (s.withWorld w) t c wr x ht hc hr hi hd⟩
  | iterateEnd t c wr x e ht hc hr hi he hb =>
    exact ⟨rfl, .iterateEnd (s.withWorld w) t c wr x e ht hc hr hi he hb⟩
  | piece t c f k y bs ht ho hk hy hp => exact ⟨rfl, .piece (s.withWorld w) t c f k y bs ht ho hk hy hp⟩
  | sent t c f k y ht ho hk hy hp => exact ⟨rfl, .sent (s.withWorld w) t c f k y ht ho hk hy hp⟩
  | other lb cfg' st h1 h2 h3 =>
    have hn := hl lb rfl
    have := step_world st (fun f cr e => hn (by rw [e]; trivial))
      (fun t ev f g k e => absurd (show ofHandlers (some lb) by rw [e]; trivial) hn) w
    exact ⟨this.1, .other (s.withWorld w) lb _ this.2 h1 h2 h3⟩

/-- A step on the sockets leaves the programs of other tasks alone. -/
theorem tcp_flights_other {σ} {env : Env σ} {p : Profile} {s s' : Tcp σ} {lb : TcpLabel σ}
    (st : Tcp.Step env p s lb s') {t : Nat} (hn : ∀ l, lb = .server l → prog l ≠ some t) :
    s'.cfg.flights t = s.cfg.flights t := by
  cases st with
  | connect c hc => rfl
  | arrive c bs h he => rfl
  | hangup c e h he => rfl
  | take c x bs rest hc hi hb => rfl
  | iterate t' c wr x ht hc hr hi hd => exact put_ne _ _ (fun e => hn _ rfl (by rw [e]; rfl))
  | iterateEnd t' c wr x e ht hc hr hi he hb => exact put_ne _ _ (fun e => hn _ rfl (by rw [e]; rfl))
  | piece t' c f k y bs ht ho hk hy hp => rfl
  | sent t' c f k y ht ho hk hy hp => exact put_ne _ _ (fun e => hn _ rfl (by rw [e]; rfl))
  | other lb cfg' st h1 h2 h3 => exact flights_other st (hn lb rfl)

theorem ofHandlers_other {σ} {lb : Label σ} (h : ofHandlers (some lb)) :
    (∀ c i, lb ≠ .outside (.connect c i)) ∧ (∀ t c w, lb ≠ .start t (.iterate c w)) ∧ ∀ t, lb ≠ .inner t := by
  cases lb with
  | outside ev => cases ev <;> simp_all [ofHandlers]
  | _ => simp_all [ofHandlers]

/-- Every step is no step, or one step, of the server on sockets with handler calls at once. -/
theorem whole_step {τ} {code : Code τ} {env : Env (HandlerId → τ)} {p : Profile} {s s' : Whole code}
    {lb : Option (TcpLabel (HandlerId → τ))} (hb : Behaves code env) (hC : Covered env p s.fine.cfg)
    (hI : MInv env s.fine) (st : Whole.Step code env p s lb s') {w : World (HandlerId → τ)} (hA : Abs s.fine w) :
    MInv env s'.fine ∧ ∃ w', Abs s'.fine w' ∧
      match lb with
      | none => s'.tcp.withWorld w' = s.tcp.withWorld w
      | some lb => Tcp.Step env p (s.tcp.withWorld w) lb (s'.tcp.withWorld w') := by
  cases st with
  | socket lb a st hl ho =>
    obtain ⟨hw, hst⟩ := tcp_step_world st hl w
    refine ⟨⟨fun t i hi => ?_, fun t i hi => ?_, fun t i hi => ?_, hI.one, hI.mixed, hI.oneApp⟩, w, ⟨?_, ?_,
      fun h hf => ?_, hA.inside, hA.app⟩, hst⟩
    · obtain ⟨f, g, k, hf, hk, hr⟩ := hI.call t i hi
      refine ⟨f, g, k, ?_, hk, hr⟩
      rw [← hf]
      exact tcp_flights_other st (fun l e hp => by
        have := ho l t e hp
        dsimp only at hi
        rw [this] at hi; simp at hi)
    · dsimp only; rw [hw]; exact hI.alive t i hi
    · dsimp only; rw [hw]; exact hI.goes t i hi
    · dsimp only; rw [hw]; exact hA.ifp
    · dsimp only; rw [hw]; exact hA.devp
    · dsimp only; rw [hw]; exact hA.free h hf
  | handler lb f st hl =>
    refine ⟨hI.step hC st, ?_⟩
    obtain ⟨w', hA', hst⟩ := hA.step hb hC hI st
    refine ⟨w', hA', ?_⟩
    cases lb with
    | none =>
      dsimp only [Option.map_none] at hst ⊢
      unfold Tcp.withWorld Whole.tcp
      rw [hst]
    | some lb =>
      obtain ⟨h1, h2, h3⟩ := ofHandlers_other hl
      exact .other (s.tcp.withWorld w) lb _ hst h1 h2 (fun t f k e => absurd e (h3 t))

/-- The execution on sockets behind an execution. -/
theorem whole_reach {τ} {code : Code τ} {env : Env (HandlerId → τ)} {p : Profile} {devices : List Device}
    {w : World (HandlerId → τ)} {ls : List (TcpLabel (HandlerId → τ))} {s : Whole code} (hb : Behaves code env)
    (h : Whole.Reach code env p (Whole.init code devices w) ls s) :
    MInv env s.fine ∧ ∃ w', Abs s.fine w' ∧ Tcp.Reach env p (Tcp.init devices w) ls (s.tcp.withWorld w') := by
  induction h with
  | refl =>
    exact ⟨.init code env devices w, w, ⟨rfl, rfl, fun _ _ => rfl, fun t i h => by simp [Whole.init, Fine.init] at h,
      fun a h e h' => by simp [Whole.init, Fine.init] at h'⟩, .refl⟩
  | @tail ls s lb s' h st ih =>
    obtain ⟨hI, w1, hA, hr⟩ := ih
    have hC : Covered env p s.fine.cfg := fun t f g k ht hk => tcp_covered hr t f g k ht hk
    obtain ⟨hI2, w2, hA2, hst⟩ := whole_step hb hC hI st hA
    refine ⟨hI2, w2, hA2, ?_⟩
    cases lb with
    | none =>
      dsimp only at hst
      rw [hst]; simpa using hr
    | some lb => exact .tail hr hst

theorem Whole.Reach.trans {τ} {code : Code τ} {env : Env (HandlerId → τ)} {p : Profile} {s s1 s2 : Whole code}
    {ls ls' : List (TcpLabel (HandlerId → τ))} (h : Whole.Reach code env p s ls s1)
    (h' : Whole.Reach code env p s1 ls' s2) : Whole.Reach code env p s (ls ++ ls') s2 := by
  induction h' with
  | refl => simpa using h
  | tail _ st ih => rw [← List.append_assoc]; exact .tail ih st

theorem Whole.Reach.one {τ} {code : Code τ} {env : Env (HandlerId → τ)} {p : Profile} {s s1 : Whole code}
    {lb : Option (TcpLabel (HandlerId → τ))} (st : Whole.Step code env p s lb s1) :
    Whole.Reach code env p s lb.toList s1 := by
  have := Whole.Reach.tail .refl st
  simpa using this

/-- What happens between handlers and their users happens while the sockets are as they are. -/
theorem lift_fine {τ} {code : Code τ} {env : Env (HandlerId → τ)} {p : Profile} (s : Whole code) {f : Fine code}
    {ls : List (Label (HandlerId → τ))} (h : Fine.Reach code env p s.fine ls f)
    (hl : ∀ l ∈ ls, ofHandlers (some l)) : Whole.Reach code env p s (ls.map .server) { s with fine := f } := by
  induction h with
  | refl => exact .refl
  | @tail ls f lb f' h st ih =>
    have h1 := ih (fun l hm => hl l (List.mem_append_left _ hm))
    have h2 := Whole.Step.handler (env := env) (p := p) { s with fine := f } lb f' st (by
      cases lb with
      | none => trivial
      | some lb => exact hl lb (by simp))
    have := h1.tail h2
    cases lb with
    | none => simpa using this
    | some lb => simpa using this

/-- What happens on the sockets happens while the users of handlers are where they are. -/
theorem lift_tcp {τ} {code : Code τ} {env : Env (HandlerId → τ)} {p : Profile} (s : Whole code)
    {a : Tcp (HandlerId → τ)} {ls : List (TcpLabel (HandlerId → τ))} (h : Tcp.Reach env p s.tcp ls a)
    (hl : ∀ l, .server l ∈ ls → ¬ ofHandlers (some l) ∧ ∀ t, prog l = some t → s.fine.inside t = none) :
    Whole.Reach code env p s ls
      { fine := { s.fine with cfg := a.cfg }, buf := a.buf, ended := a.ended, got := a.got } := by
  induction h with
  | refl => exact .refl
  | @tail ls a lb a' h st ih =>
    have h1 := ih (fun l hm => hl l (List.mem_append_left _ hm))
    have h2 := Whole.Step.socket (code := code) (env := env) (p := p)
      { fine := { s.fine with cfg := a.cfg }, buf := a.buf, ended := a.ended, got := a.got } lb a' st
      (fun l e => (hl l (by simp [e])).1) (fun l t e => (hl l (by simp [e])).2 t)
    exact h1.tail h2

/-- A connection's program gets to its handler call, on sockets. -/
theorem tcp_arrive {σ} (env : Env σ) (p : Profile) (s : Tcp σ) (t c : Nat)
    (wr : WriteRes) (x : Conn) (call : HCall) (hft : s.cfg.flights t = none) (hc : s.cfg.conns c = some x)
    (hr : x.status = .running) (hi : s.cfg.idle c) (hq : s.cfg.queue .used = [])
    (hnw : ∀ u g, s.cfg.flights u = some g → g.held .used ≠ some .w)
    (hcall : x.call p s.cfg.shared.used = some call) :
    ∃ f g k, f.code = .commit g k ∧ f.owner = some c ∧ f.held .used = some .r ∧ f.ev = .iterate c wr ∧
      Tcp.Reach env p s [.server (.start t (.iterate c wr)), .server (.inner t), .server (.inner t), .server (.inner t)]
        { s with cfg := s.cfg.put t (some f) } := by
  obtain ⟨f, g, k, s2, s3, hk, ho, hh, hev, st1, st2, st3, st4, n1, n2, n3⟩ :=
    arrive_steps env p s.cfg t c wr x call hft hc hr hi hq hnw hcall
  have hd : (readCommand p : Rd Arrived Cmd) ⟨x.input.bytes⟩ ≠ .diverge := by
    intro hd
    have := early_readCommand p x.input.bytes
    rw [hd] at this
    have h1 := this x.input.fin
    have hx : x.input = ⟨x.input.bytes, x.input.fin⟩ := rfl
    rw [← hx] at h1
    unfold Conn.call at hcall
    rw [h1] at hcall
    simp at hcall
  have o1 := Tcp.Step.iterate (env := env) (p := p) s t c wr x hft hc hr hi hd
  have o2 := Tcp.Step.other (env := env) (p := p) { s with cfg := _ } _ _ st2 (by simp) (by simp) (by
    intro t' f' k' e hf
    cases e
    dsimp only at hf
    rw [upd_self] at hf; cases hf
    exact n1 k')
  have o3 := Tcp.Step.other (env := env) (p := p) { s with cfg := s2 } _ _ st3 (by simp) (by simp) (by
    intro t' f' k' e hf
    cases e
    exact n2 f' k' hf)
  have o4 := Tcp.Step.other (env := env) (p := p) { s with cfg := s3 } _ _ st4 (by simp) (by simp) (by
    intro t' f' k' e hf
    cases e
    exact n3 f' k' hf)
  exact ⟨f, g, k, hk, ho, hh, hev, .step o1 (.step o2 (.step o3 (.step o4 .refl)))⟩

/-- With nothing in flight nobody waits for a lock. -/
theorem tcp_queue {σ} {env : Env σ} {p : Profile} {devices : List Device} {w : World σ}
    {ls : List (TcpLabel σ)} {s : Tcp σ} (h : Tcp.Reach env p (Tcp.init devices w) ls s)
    (hq : ∀ t, s.cfg.flights t = none) (l : Lk) : s.cfg.queue l = [] := by
  obtain ⟨ls', hr, _, _⟩ := (TInv.reach h).fore _ (someFuture_possible s)
  have := (QInv.reach hr).queue l
  cases hl : s.cfg.queue l with
  | nil => rfl
  | cons t q =>
    obtain ⟨g, _, _, hg, _⟩ := (this t).mp (by
      show t ∈ s.cfg.queue l
      rw [hl]; exact List.mem_cons_self ..)
    obtain ⟨f, hf, _⟩ := hearing_flight_inv hg
    rw [hq t] at hf; simp at hf

/-- A connection's task takes all that has arrived. -/
theorem take_all {σ} (env : Env σ) (p : Profile) (s : Tcp σ) (c : Nat) (x : Conn) (hc : s.cfg.conns c = some x)
    (hi : s.cfg.idle c) : Tcp.Reach env p s [.take c] { s with
      cfg := { s.cfg with conns := setConn s.cfg.conns c { x with input := ⟨x.input.bytes ++ s.buf c, x.input.fin⟩ } }
      buf := upd s.buf c [] } :=
  .step (.take s c x (s.buf c) [] hc hi (List.append_nil _).symm) .refl

/-- With handlers that count their calls, counters do not decrease. -/
theorem count_step {τ} {env : Env (HandlerId → τ)} {p : Profile} {devices : List Device} {w : World (HandlerId → τ)}
    {ls : List (TcpLabel (HandlerId → τ))} {a a' : Tcp (HandlerId → τ)} {lb : TcpLabel (HandlerId → τ)}
    (h : Tcp.Reach env p (Tcp.init devices w) ls a) (st : Tcp.Step env p a lb a')
    (hl : ∀ f crash, lb ≠ .server (.outside (.user f crash))) (m : τ → Nat)
    (h2 : ∀ c u o, m (u o) ≤ m ((HCall.answer env u c).2 o)) (o : HandlerId) :
    m (a.cfg.shared.world.user o) ≤ m (a'.cfg.shared.world.user o) := by
  by_cases hs : ∀ l, lb = .server l → ¬ ofHandlers (some l)
  · rw [(tcp_step_world st hs a.cfg.shared.world).1]; exact Nat.le_refl _
  · cases st with
    | other lb cfg' st =>
      cases st with
      | commit t f g k ht hk =>
        have hcov := tcp_covered h t f g k ht hk
        show m (a.cfg.shared.world.user o) ≤ m ((g a.cfg.shared.world).user o)
        cases hc : a.cfg.call p f with
        | none =>
          rw [hc] at hcov
          rw [(hcov _).1]; exact Nat.le_refl _
        | some c =>
          rw [hc] at hcov
          obtain ⟨_, cont, hrun⟩ := hcov
          rw [(hrun a.cfg.shared.world).1, invoke_fine]
          have := h2 c a.cfg.shared.world.user o
          split
          · exact Nat.le_refl _
          · dsimp only
            split <;> cases c <;> exact this
      | user f crash => exact absurd rfl (hl f crash)
      | _ => exact Nat.le_refl _
    | _ => exact Nat.le_refl _

theorem count_reach {τ} {env : Env (HandlerId → τ)} {p : Profile} {devices : List Device} {w : World (HandlerId → τ)}
    {ls : List (TcpLabel (HandlerId → τ))} {a : Tcp (HandlerId → τ)}
    (h : Tcp.Reach env p (Tcp.init devices w) ls a)
    (hl : ∀ f crash, .server (.outside (.user f crash)) ∉ ls) (m : τ → Nat)
    (h2 : ∀ c u o, m (u o) ≤ m ((HCall.answer env u c).2 o)) (o : HandlerId) :
    m (w.user o) ≤ m (a.cfg.shared.world.user o) := by
  induction h with
  | refl => exact Nat.le_refl _
  | @tail ls a lb a' h st ih =>
    exact Nat.le_trans (ih (fun f cr hf => hl f cr (List.mem_append_left _ hf)))
      (count_step h st (fun f cr e => hl f cr (by simp [e])) m h2 o)

/-- Every execution on sockets (in which the application acts on one handler object at a time) is one in
which handler code runs step by step. -/
theorem lift_all' {τ} {code : Code τ} {env : Env (HandlerId → τ)} (hb : Behaves code env)
    {p : Profile} {devices : List Device} {w : World (HandlerId → τ)} {ls : List (TcpLabel (HandlerId → τ))}
    {a : Tcp (HandlerId → τ)} (hr : Tcp.Reach env p (Tcp.init devices w) ls a)
    (hret : Returns code ∨ ∃ m : τ → Nat, (∀ c u, m (u (code.obj (HCall.target c))) < m ((HCall.answer env u c).2 (code.obj c.target))) ∧
      (∀ c u o, m (u o) ≤ m ((HCall.answer env u c).2 o)) ∧ (∀ f crash, .server (.outside (.user f crash)) ∉ ls) ∧
      ∀ o, m (a.cfg.shared.world.user o) ≤ m (w.user o))
    (hu' : ∀ f crash, .server (.outside (.user f crash)) ∈ ls →
      ∃ o v, f = (fun u => upd u o v) ∧ ∀ h, crash = some h → code.obj h = o) :
    ∃ s : Whole code, Whole.Reach code env p (Whole.init code devices w) ls s ∧ s.tcp = a ∧
      (∀ t, s.fine.inside t = none) ∧ ∀ x, s.fine.app x = none := by
  induction hr with
  | refl => exact ⟨_, .refl, rfl, fun _ => rfl, fun _ => rfl⟩
  | @tail ls a lb a' h st ih =>
    obtain ⟨s, hs, rfl, hin, hap⟩ := ih (hret.imp id fun ⟨m, h1, h2, h3, h4⟩ => ⟨m, h1, h2,
      fun f cr hf => h3 f cr (List.mem_append_left _ hf),
      fun o => Nat.le_trans (count_step h st (fun f cr e => h3 f cr (by simp [e])) m h2 o) (h4 o)⟩)
      (fun f cr hf => hu' f cr (List.mem_append_left _ hf))
    have hC : Covered env p s.fine.cfg := fun t f g k ht hk => tcp_covered h t f g k ht hk
    have hfree : ∀ o, s.fine.free o :=
      fun o => ⟨fun t i ht => by rw [hin t] at ht; simp at ht, fun x e hx => by rw [hap x] at hx; simp at hx⟩
    by_cases hl : ∃ l, lb = .server l ∧ ofHandlers (some l)
    · obtain ⟨l, rfl, hl⟩ := hl
      have viaFine : ∀ (f' : Fine code), Fine.Reach code env p s.fine [l] f' → f'.inside = s.fine.inside →
          f'.app = s.fine.app → ({ s with fine := f' } : Whole code).tcp = a' →
          ∃ s : Whole code, Whole.Reach code env p (Whole.init code devices w) (ls ++ [.server l]) s ∧ s.tcp = a' ∧
            (∀ t, s.fine.inside t = none) ∧ ∀ x, s.fine.app x = none := by
        intro f' hf e1 e2 e3
        refine ⟨_, hs.trans (lift_fine s hf (fun l' hm => by rw [List.mem_singleton.mp hm]; exact hl)), e3, ?_, ?_⟩
        · intro t; dsimp only; rw [e1]; exact hin t
        · intro t; dsimp only; rw [e2]; exact hap t
      cases st with
      | connect c hc => exact absurd hl id
      | iterate => exact absurd hl id
      | iterateEnd => exact absurd hl id
      | sent => exact absurd hl id
      | other _ cfg' st h1 h2 h3 =>
        cases st with
        | user f crash =>
          obtain ⟨o, v, rfl, hcr⟩ := hu' f crash (by simp)
          exact viaFine _ (app_reach env p s.fine 0 o v (hap 0) (hfree o) crash hcr) rfl rfl rfl
        | commit t f g k ht hk =>
          cases hc : s.fine.cfg.call p f with
          | some c =>
            refine viaFine _ (call_reach' hb (fun hcr => ?_) hC ht hk hc (hin t) (hfree _)) rfl rfl rfl
            rcases hret with hret | ⟨m, h1, h2, h3, h4⟩
            · exact hret c _
            · exfalso
              have hcov := hC t f g k ht hk
              rw [hc] at hcov
              obtain ⟨_, cont, hrun⟩ := hcov
              have e := (hrun s.fine.cfg.shared.world).1
              rw [invoke_fine, hcr] at e
              have h5 := h4 (code.obj c.target)
              have h6 := count_reach h (fun f cr hf => h3 f cr (List.mem_append_left _ hf)) m h2 (code.obj c.target)
              have h7 := h1 c s.fine.cfg.shared.world.user
              have e2 : (g s.fine.cfg.shared.world).user = (c.answer env s.fine.cfg.shared.world.user).2 := by
                rw [e]; simp only [Bool.false_eq_true, if_false]; split <;> cases c <;> rfl
              have h5' : m ((g s.fine.cfg.shared.world).user (code.obj c.target)) ≤ m (w.user (code.obj c.target)) := h5
              rw [e2] at h5'
              have h6' : m (w.user (code.obj c.target)) ≤ m (s.fine.cfg.shared.world.user (code.obj c.target)) := h6
              omega
          | none =>
            refine viaFine _ (Fine.Reach.one (.outer s.fine (.effect t f.ev) _
              (.commit s.fine.cfg t f g k ht hk) (fun u _ => hin u) (fun _ _ e => by simp at e) ?_)) rfl rfl rfl
            intro u ev f' e hf'
            simp only [Label.effect.injEq] at e
            obtain ⟨rfl, _⟩ := e
            have : s.fine.cfg.flights t = some f := ht
            rw [this] at hf'; cases hf'; exact hc
        | connect | iterate | add | remove | request | grant | unlock | getUsed | getAvail | putUsed | putAvail | send
        | finish | abandon | cancel => exact absurd hl id
    · refine ⟨_, hs.tail (.socket s lb a' st (fun l e ho => hl ⟨l, e, ho⟩) (fun l t _ _ => hin t)), rfl, hin, hap⟩

theorem lift_all {τ} {code : Code τ} {env : Env (HandlerId → τ)} (hb : Behaves code env) (hret : Returns code)
    {p : Profile} {devices : List Device} {w : World (HandlerId → τ)} {ls : List (TcpLabel (HandlerId → τ))}
    {a : Tcp (HandlerId → τ)} (hr : Tcp.Reach env p (Tcp.init devices w) ls a)
    (hu' : ∀ f crash, .server (.outside (.user f crash)) ∈ ls →
      ∃ o v, f = (fun u => upd u o v) ∧ ∀ h, crash = some h → code.obj h = o) :
    ∃ s : Whole code, Whole.Reach code env p (Whole.init code devices w) ls s ∧ s.tcp = a ∧
      (∀ t, s.fine.inside t = none) ∧ ∀ x, s.fine.app x = none :=
  lift_all' hb hr (.inl hret) hu'

end Usbip
