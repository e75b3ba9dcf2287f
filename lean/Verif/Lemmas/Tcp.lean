import Verif.Lemmas.Sockets
/-! Helper lemmas: executions on sockets, explained. -/

namespace Usbip
open Spec

/-- The interactive history seen from outside. -/
def told {σ} (env : Env σ) (p : Profile) (devices : List Device) (w : World σ) (ls : List (TcpLabel σ)) : Net σ :=
  (Net.init devices w).run env p (ls.filterMap tcpEvent)

theorem told_snoc {σ} (env : Env σ) (p : Profile) (devices : List Device) (w : World σ) (ls : List (TcpLabel σ))
    (lb : TcpLabel σ) :
    told env p devices w (ls ++ [lb]) = (told env p devices w ls).run env p (tcpEvent lb).toList := by
  unfold told
  rw [Net.run, List.filterMap_append, List.foldl_append, List.filterMap_cons, List.filterMap_nil]
  cases tcpEvent lb <;> rfl

/-- `fut` is what may still come: nothing on connections whose client has ended. -/
def Possible {σ} (s : Tcp σ) (fut : Nat → Stream) : Prop := ∀ c e, s.ended c = some e → fut c = ⟨[], e⟩

/-- A lock-level execution with hindsight. -/
def Foretold {σ} (env : Env σ) (p : Profile) (devices : List Device) (w : World σ) (ls : List (TcpLabel σ))
    (s : Tcp σ) (fut : Nat → Stream) : Prop :=
  ∃ ls', Cfg.Reach env p (Cfg.init devices w) ls' (hearing (inSocket s fut) s.cfg) ∧
    ls'.map bare = ls.filterMap serverStep ∧
    Foresees (told env p devices w ls) ((Sys.init devices w).run env p (ls'.filterMap Label.event)) fut

structure TInv {σ} (env : Env σ) (p : Profile) (devices : List Device) (w : World σ) (ls : List (TcpLabel σ))
    (s : Tcp σ) : Prop where
  ended : (told env p devices w ls).ended = s.ended
  fresh : ∀ c, s.cfg.conns c = none → s.buf c = [] ∧ s.ended c = none ∧ s.got c = []
  ready : ∀ t f c x, s.cfg.flights t = some f → f.owner = some c → f.committed = false →
    s.ended c = none → s.cfg.conns c = some x → (readCommand p : Rd Arrived Cmd) ⟨x.input.bytes⟩ ≠ .diverge
  out : ∀ t f, s.cfg.flights t = some f → f.code.Out (f.owner.map s.got)
  wait : ∀ t f c, s.cfg.flights t = some f → f.owner = some c → f.committed = false → s.got c = outOf (s.cfg.conns c)
  idle : ∀ c, s.cfg.idle c → s.got c = outOf (s.cfg.conns c)
  fore : ∀ fut, Possible s fut → Foretold env p devices w ls s fut

theorem upcoming_nil {σ} {n : Net σ} {s : Tcp σ} {fut : Nat → Stream} (he : n.ended = s.ended) (hp : Possible s fut) :
    upcoming n fut [] = fut := by
  funext c
  unfold upcoming
  rw [he]
  cases h : s.ended c with
  | none => rfl
  | some e => exact (hp c e h).symm

theorem run_events {σ} (env : Env σ) (p : Profile) (S : Sys σ) (ls : List (Label σ)) (lb : Label σ) :
    S.run env p ((ls ++ [lb]).filterMap Label.event) = (S.run env p (ls.filterMap Label.event)).run env p lb.event.toList := by
  rw [Sys.run, List.filterMap_append, List.foldl_append, List.filterMap_cons, List.filterMap_nil]
  cases lb.event <;> rfl

/-- A server event on both sides. -/
theorem foresees_event {σ} (env : Env σ) (p : Profile) (n : Net σ) (S : Sys σ) (fut : Nat → Stream) (e : Event σ)
    (hup : upcoming n fut [] = fut) (hF : Foresees n S fut)
    (hr : ∀ c w, e = .iterate c w → n.ready p c = true) (hc : ∀ c i, e = .connect c i → i = fut c) :
    Foresees (n.step env p (live e)) (S.step env p e) fut ∧ (n.step env p (live e)).ended = n.ended := by
  have hend : (n.step env p (live e)).ended = n.ended := by
    cases e <;> try rfl
    simp only [live, Net.step]
    split <;> rfl
  refine ⟨?_, hend⟩
  have h1 : upcoming n fut (live e :: []) = fut := by
    rw [← hup]
    funext c
    rw [hup]
    refine (upcoming_congr rfl (fun _ => ?_)).trans (congrFun hup c)
    cases e <;> rfl
  have h2 : upcoming (n.step env p (live e)) fut [] = fut := by
    funext c
    exact (upcoming_congr (by rw [hend]) (fun _ => rfl)).trans (congrFun hup c)
  have := foresees_step env p fut (live e) [] n S (by rw [h1]; exact hF)
  rw [h2] at this
  have hcount : counted p fut n [] (live e) = [e] := by
    cases e with
    | connect c i => rw [hc c i rfl]; rfl
    | iterate c w => exact if_pos (hr c w rfl)
    | cancel c => rfl
    | addDevice d => rfl
    | removeDevice i => rfl
    | user f => rfl
  rw [hcount] at this
  exact this

theorem other_ne_diverge (p : Profile) (bs more : Bytes)
    (h : (readCommand p : Rd Arrived Cmd) ⟨bs⟩ ≠ .diverge) : (readCommand p : Rd Arrived Cmd) ⟨bs ++ more⟩ ≠ .diverge := by
  intro hd
  have h1 := early_readCommand p bs
  have h2 := early_readCommand p (bs ++ more)
  rw [hd] at h2
  cases hr : (readCommand p : Rd Arrived Cmd) ⟨bs⟩ with
  | diverge => exact h hr
  | ok q =>
    rw [hr] at h1
    have a := h1 more .unexpectedEof
    have b := h2 .unexpectedEof
    rw [a] at b; simp at b
  | err e =>
    rw [hr] at h1
    have a := fun fin => h1 more fin
    have b := fun fin => h2 fin
    have c : ∀ fin, ErrKind.unexpectedEof = fin := fun fin => by
      have e1 : e = .unexpectedEof := by
        have := b .unexpectedEof; rw [a] at this; exact Outcome.err.inj this
      have e2 : e = fin := by have := b fin; rw [a] at this; exact Outcome.err.inj this
      rw [← e1, e2]
    exact absurd (c .other) (by decide)
  | panic =>
    rw [hr] at h1
    have a := h1 more .unexpectedEof
    have b := h2 .unexpectedEof
    rw [a] at b; simp at b

/-- The connection of a program that has had no effect, or of none, seen from outside. -/
theorem Foretold.conn {σ} {env : Env σ} {p : Profile} {devices : List Device} {w : World σ} {ls : List (TcpLabel σ)}
    {s : Tcp σ} {fut : Nat → Stream} (h : Foretold env p devices w ls s fut) (c : Nat)
    (hc : ∀ t f, s.cfg.flights t = some f → f.committed = true → f.owner ≠ some c) :
    ((told env p devices w ls).sys.conns c).map (awaiting · (fut c))
      = (s.cfg.conns c).map (awaiting · (inSocket s fut c)) := by
  obtain ⟨ls', hr, _, hF⟩ := h
  rw [← hF.conns c]
  refine (CInv.reach hr).conns c (fun t g hg hcm ho => ?_)
  obtain ⟨f, hf, rfl⟩ := hearing_flight_inv hg
  exact hc t f hf hcm ho

theorem awaiting_inj {x y : Conn} {bs : Bytes} {m : Stream} (h : awaiting x m = awaiting y ⟨bs ++ m.bytes, m.fin⟩) :
    x.input.bytes = y.input.bytes ++ bs ∧ x.current = y.current ∧ x.output = y.output ∧ x.status = y.status ∧
      x.served = y.served := by
  simp only [awaiting, Conn.mk.injEq, Stream.mk.injEq, and_true] at h
  obtain ⟨h1, h2, h3, h4, h5⟩ := h
  rw [← List.append_assoc] at h1
  exact ⟨List.append_cancel_right h1, h2, h3, h4, h5⟩

theorem tinv_init {σ} (env : Env σ) (p : Profile) (devices : List Device) (w : World σ) :
    TInv env p devices w [] (Tcp.init devices w) := by
  refine ⟨rfl, fun _ _ => ⟨rfl, rfl, rfl⟩, ?_, ?_, ?_, fun _ _ => rfl, fun fut _ => ⟨[], .refl, rfl, foresees_init devices w fut⟩⟩
  · intro t f c x h; simp [Tcp.init, Cfg.init] at h
  · intro t f h; simp [Tcp.init, Cfg.init] at h
  · intro t f c h; simp [Tcp.init, Cfg.init] at h

/-- A client of every kind. -/
def someFuture {σ} (s : Tcp σ) (c : Nat) : Stream :=
  match s.ended c with
  | some e => ⟨[], e⟩
  | none => ⟨[], .unexpectedEof⟩

theorem someFuture_possible {σ} (s : Tcp σ) : Possible s (someFuture s) := by
  intro c e h; unfold someFuture; rw [h]

theorem TInv.owners {σ} {env : Env σ} {p : Profile} {devices : List Device} {w : World σ} {ls : List (TcpLabel σ)}
    {s : Tcp σ} (h : TInv env p devices w ls s) {t u : Nat} {f g : Flight σ} {c : Nat}
    (hf : s.cfg.flights t = some f) (hg : s.cfg.flights u = some g) (hfo : f.owner = some c)
    (hgo : g.owner = some c) : t = u := by
  obtain ⟨ls', hr, _, _⟩ := h.fore _ (someFuture_possible s)
  exact (CInv.reach hr).owners t u _ _ c (hearing_flight hf) (hearing_flight hg) hfo hgo

/-- A program that is sending has had its effect. -/
theorem TInv.sending {σ} {env : Env σ} {p : Profile} {devices : List Device} {w : World σ} {ls : List (TcpLabel σ)}
    {s : Tcp σ} (h : TInv env p devices w ls s) {t : Nat} {f : Flight σ} {k : Task σ}
    (hf : s.cfg.flights t = some f) (hk : f.code = .send k) : f.committed = true := by
  obtain ⟨ls', hr, _, _⟩ := h.fore _ (someFuture_possible s)
  obtain ⟨d, hwl, _⟩ := ((CInv.reach hr).fl t _ (hearing_flight hf)).prog
  dsimp only at hwl
  rw [hk] at hwl
  cases ho : f.owner with
  | none => rw [ho] at hwl; exact hwl.1
  | some c => rw [ho] at hwl; exact hwl.1

theorem TInv.kind {σ} {env : Env σ} {p : Profile} {devices : List Device} {w : World σ} {ls : List (TcpLabel σ)}
    {s : Tcp σ} (h : TInv env p devices w ls s) {t : Nat} {f : Flight σ} (hf : s.cfg.flights t = some f) :
    (∃ c w, f.ev = .iterate c w ∧ f.owner = some c) ∨
    (((∃ d, f.ev = .addDevice d) ∨ ∃ i, f.ev = .removeDevice i) ∧ f.owner = none) := by
  obtain ⟨ls', hr, _, _⟩ := h.fore _ (someFuture_possible s)
  exact ((CInv.reach hr).fl t _ (hearing_flight hf)).kind

theorem TInv.owned {σ} {env : Env σ} {p : Profile} {devices : List Device} {w : World σ} {ls : List (TcpLabel σ)}
    {s : Tcp σ} (h : TInv env p devices w ls s) {t : Nat} {f : Flight σ} {c : Nat} (hf : s.cfg.flights t = some f)
    (hc : f.owner = some c) : ∃ x, s.cfg.conns c = some x ∧ x.status = .running := by
  obtain ⟨ls', hr, _, _⟩ := h.fore _ (someFuture_possible s)
  obtain ⟨y, hy, hyr⟩ := ((CInv.reach hr).fl t _ (hearing_flight hf)).owner c hc
  simp only [hearing, Option.map_eq_some_iff] at hy
  obtain ⟨x, hx, rfl⟩ := hy
  exact ⟨x, hx, hyr⟩

/-- A connection is there seen from outside if it is there. -/
theorem TInv.there {σ} {env : Env σ} {p : Profile} {devices : List Device} {w : World σ} {ls : List (TcpLabel σ)}
    {s : Tcp σ} (h : TInv env p devices w ls s) {c : Nat} (hc : s.cfg.conns c ≠ none) :
    ∃ x, (told env p devices w ls).sys.conns c = some x := by
  obtain ⟨ls', hr, hb, hF⟩ := h.fore _ (someFuture_possible s)
  have hC := CInv.reach hr
  have : ((Sys.init devices w).run env p (ls'.filterMap Label.event)).conns c ≠ none := by
    by_cases hx : ∃ t f, s.cfg.flights t = some f ∧ f.committed = true ∧ f.owner = some c
    · obtain ⟨t, f, hf, hcm, ho⟩ := hx
      obtain ⟨e, y, hy⟩ := (hC.fl t _ (hearing_flight hf)).conn hcm c ho
      rw [e, hy]; simp [Ended.conn?]
    · rw [hC.conns c (fun t g hg hcm ho => by
        obtain ⟨f, hf, rfl⟩ := hearing_flight_inv hg
        exact hx ⟨t, f, hf, hcm, ho⟩)]
      simpa [hearing] using hc
  rw [hF.conns c] at this
  cases hn : (told env p devices w ls).sys.conns c with
  | none => rw [hn] at this; simp at this
  | some x => exact ⟨x, rfl⟩

theorem TInv.readyNow {σ} {env : Env σ} {p : Profile} {devices : List Device} {w : World σ} {ls : List (TcpLabel σ)}
    {s : Tcp σ} (h : TInv env p devices w ls s) {t : Nat} {f : Flight σ} {c : Nat} (hf : s.cfg.flights t = some f)
    (hc : f.owner = some c) (hcm : f.committed = false) : (told env p devices w ls).ready p c = true := by
  obtain ⟨x, hx, hr⟩ := h.owned hf hc
  have hconn := (h.fore _ (someFuture_possible s)).conn c (fun u g hg hgc hgo => by
    have := h.owners hf hg hc hgo
    subst this
    rw [hf] at hg; cases hg
    rw [hcm] at hgc; simp at hgc)
  rw [hx] at hconn
  simp only [Option.map_some, Option.map_eq_some_iff] at hconn
  obtain ⟨n, hn, e⟩ := hconn
  have hb := (awaiting_inj e).1
  unfold Net.ready
  rw [hn, h.ended]
  cases he : s.ended c with
  | some e => rfl
  | none =>
    have := h.ready t f c x hf hc hcm he hx
    have h2 := other_ne_diverge p x.input.bytes (s.buf c) this
    rw [← hb] at h2
    dsimp only
    cases hd : (readCommand p : Rd Arrived Cmd) ⟨n.input.bytes⟩ with
    | diverge => exact absurd hd h2
    | ok _ => rfl
    | err _ => rfl
    | panic => rfl

/-- A step of the configuration, on both sides. -/
theorem TInv.foretell {σ} {env : Env σ} {p : Profile} {devices : List Device} {w : World σ} {ls : List (TcpLabel σ)}
    {s s' : Tcp σ} {lb lb' : Label σ} (h : TInv env p devices w ls s) (fut : Nat → Stream) (hp : Possible s fut)
    (hs : Cfg.Step env p (hearing (inSocket s fut) s.cfg) lb' (hearing (inSocket s' fut) s'.cfg))
    (hb : bare lb' = lb) (he : lb.event.map live = lb'.event.map live)
    (hr : ∀ c wr, lb'.event = some (.iterate c wr) → (told env p devices w ls).ready p c = true)
    (hc : ∀ c i, lb'.event = some (.connect c i) → i = fut c) :
    Foretold env p devices w (ls ++ [.server lb]) s' fut := by
  obtain ⟨ls', hR, hm, hF⟩ := h.fore fut hp
  refine ⟨ls' ++ [lb'], .tail hR hs, ?_, ?_⟩
  · rw [List.map_append, List.filterMap_append, hm]
    simp [serverStep, hb]
  · rw [told_snoc, run_events]
    simp only [tcpEvent, he]
    cases hev : lb'.event with
    | none => exact hF
    | some e =>
      exact (foresees_event env p _ _ fut e (upcoming_nil h.ended hp) hF (fun c wr hh => hr c wr (by rw [hev, hh]))
        (fun c i hh => hc c i (by rw [hev, hh]))).1

theorem told_ended {σ} (env : Env σ) (p : Profile) (devices : List Device) (w : World σ) (ls : List (TcpLabel σ))
    (lb : Label σ) : (told env p devices w (ls ++ [.server lb])).ended = (told env p devices w ls).ended := by
  rw [told_snoc]
  simp only [tcpEvent]
  cases lb.event with
  | none => rfl
  | some e =>
    cases e <;> try rfl
    simp only [Option.map_some, live, Option.toList_some, Net.run, List.foldl_cons, List.foldl_nil, Net.step]
    split <;> rfl

theorem inSocket_congr {σ} {s s' : Tcp σ} (h : s'.buf = s.buf) (fut : Nat → Stream) : inSocket s' fut = inSocket s fut := by
  funext c; unfold inSocket; rw [h]

theorem bare_other {σ} {lb : Label σ} (h : ∀ c i, lb ≠ .outside (.connect c i)) : bare lb = lb := by
  cases lb with
  | outside e => cases e <;> first | rfl | exact absurd rfl (h _ _)
  | _ => rfl

theorem hearing_congr {σ} {m m' : Nat → Stream} {s : Cfg σ} {c : Nat} (hm : ∀ c', c' ≠ c → m' c' = m c')
    (hc : (s.conns c).map (awaiting · (m' c)) = (s.conns c).map (awaiting · (m c)))
    (hi : s.idle c) : hearing m' s = hearing m s := by
  unfold hearing
  congr 1
  · funext c'
    by_cases e : c' = c
    · subst e; exact hc
    · rw [hm c' e]
  · funext t
    cases hf : s.flights t with
    | none => rfl
    | some f =>
      simp only [Option.map_some, Option.some.injEq, hearFlight_eq]
      congr 1
      cases ho : f.owner with
      | none => rfl
      | some c' =>
        have : c' ≠ c := by rintro rfl; exact hi t f hf ho
        simp only [hearCode, hm c' this]

/-- The event of a step that is not a start or a new connection. -/
theorem step_event {σ} {env : Env σ} {p : Profile} {s s' : Cfg σ} {lb : Label σ} (st : Cfg.Step env p s lb s')
    {c : Nat} {wr : WriteRes} (h : lb.event = some (.iterate c wr)) :
    ∃ t f g k, s.flights t = some f ∧ f.code = .commit g k ∧ f.ev = .iterate c wr := by
  cases st with
  | commit t f g k ht hk =>
    simp only [Label.event, Option.some.injEq] at h
    exact ⟨t, f, g, k, ht, hk, h⟩
  | abandon t f ht hc => cases ho : f.owner <;> simp [Label.event, ho] at h
  | _ => simp [Label.event] at h

theorem step_none {σ} {env : Env σ} {p : Profile} {s s' : Cfg σ} {lb : Label σ} (st : Cfg.Step env p s lb s')
    {c : Nat} (h : s'.conns c = none) : s.conns c = none := by
  have set : ∀ {c' : Nat} {x : Conn}, setConn s.conns c' x c = none → s.conns c = none := by
    intro c' x hh
    by_cases e : c = c'
    · simp [setConn, e] at hh
    · rwa [setConn_ne e] at hh
  cases st with
  | connect c input hc => exact set h
  | cancel c' x hc hr hi => exact set h
  | finish t f x ht hk =>
    have h : finished s.conns f.owner x c = none := h
    cases ho : f.owner with
    | none => rw [ho] at h; exact h
    | some c' =>
      cases x with
      | call r => rw [ho] at h; exact h
      | conn y => rw [ho] at h; exact set h
  | abandon t f ht hc =>
    have h : dropped s.conns f.owner c = none := h
    cases ho : f.owner with
    | none => rw [ho] at h; exact h
    | some c' =>
      rw [ho] at h
      cases hx : s.conns c' with
      | none => simpa only [dropped, hx] using h
      | some y => simp only [dropped, hx] at h; exact set h
  | _ => exact h

theorem TInv.step {σ} {env : Env σ} {p : Profile} {devices : List Device} {w : World σ} {ls : List (TcpLabel σ)}
    {s s' : Tcp σ} {lb : TcpLabel σ} (h : TInv env p devices w ls s) (st : Tcp.Step env p s lb s') :
    TInv env p devices w (ls ++ [lb]) s' := by
  cases st with
  | connect c hc =>
    obtain ⟨hbuf, hend, hgot⟩ := h.fresh c hc
    have hown : ∀ t f c', s.cfg.flights t = some f → f.owner = some c' → c' ≠ c := by
      rintro t f c' hf ho rfl
      obtain ⟨x, hx, _⟩ := h.owned hf ho
      rw [hc] at hx; simp at hx
    refine ⟨by rw [told_ended]; exact h.ended, ?_, ?_, h.out, ?_, ?_, ?_⟩
    · intro c' hn
      by_cases e : c' = c
      · simp [setConn, e] at hn
      · simp only [setConn_ne e] at hn; exact h.fresh c' hn
    · intro t f c' x hf ho hcm hen hx
      simp only [setConn_ne (hown t f c' hf ho)] at hx
      exact h.ready t f c' x hf ho hcm hen hx
    · intro t f c' hf ho hcm
      simp only [setConn_ne (hown t f c' hf ho)]
      exact h.wait t f c' hf ho hcm
    · intro c' hi
      by_cases e : c' = c
      · subst e; simp [setConn, outOf, Conn.new, hgot]
      · simp only [setConn_ne e]; exact h.idle c' hi
    · intro fut hp
      refine h.foretell (lb' := .outside (.connect c (fut c))) fut hp ?_ rfl rfl (by intro c' wr hh; simp [Label.event] at hh)
        (by intro c' i hh; simp only [Label.event, Option.some.injEq, Event.connect.injEq] at hh; rw [← hh.1, hh.2])
      have := Cfg.Step.connect (env := env) (p := p) (hearing (inSocket s fut) s.cfg) c (fut c) (by simp [hearing, hc])
      show Cfg.Step env p _ _ (hearing (inSocket s fut)
        { s.cfg with conns := setConn s.cfg.conns c (Conn.new ⟨[], .unexpectedEof⟩) })
      rw [hearing_setConn]
      have e : awaiting (Conn.new ⟨[], .unexpectedEof⟩) (inSocket s fut c) = Conn.new (fut c) := by
        simp [awaiting, Conn.new, inSocket, hbuf]
      rw [e]
      exact this
  | arrive c bs hc hen =>
    have hne : (told env p devices w (ls ++ [.arrive c bs])).ended = (told env p devices w ls).ended := by
      rw [told_snoc]
      show ((told env p devices w ls).step env p (.arrive c bs)).ended = _
      simp only [Net.step]
      split <;> rfl
    refine ⟨hne.trans h.ended, ?_, h.ready, h.out, h.wait, h.idle, ?_⟩
    · intro c' hn
      have : c' ≠ c := by rintro rfl; exact hc hn
      simp only [upd_ne _ _ this]
      exact h.fresh c' hn
    · intro fut hp
      have hp' : Possible s (upcoming (told env p devices w ls) fut [.arrive c bs]) := by
        intro c' e he
        unfold upcoming
        rw [h.ended, he]
      obtain ⟨ls', hR, hm, hF⟩ := h.fore _ hp'
      refine ⟨ls', ?_, by rw [hm]; simp [serverStep], ?_⟩
      · have : inSocket { s with buf := upd s.buf c (s.buf c ++ bs) } fut
            = inSocket s (upcoming (told env p devices w ls) fut [.arrive c bs]) := by
          funext c'
          unfold inSocket upcoming
          rw [h.ended]
          by_cases e : c' = c
          · subst e
            simp [upd_self, hen, sent]
          · simp only [upd_ne _ _ e]
            cases he : s.ended c' with
            | some e' => simp only [hp c' e' he]
            | none => simp only [sent]; rw [if_neg (fun hh => e hh.symm)]
        rw [this]
        exact hR
      · rw [told_snoc]
        have := foresees_step env p fut (.arrive c bs) [] _ _ hF
        rw [upcoming_nil (s := { s with buf := upd s.buf c (s.buf c ++ bs) }) (by
          rw [← h.ended, ← hne, told_snoc]; rfl) hp] at this
        exact this
  | hangup c e hc hen =>
    obtain ⟨n, hn⟩ := h.there hc
    have hne : (told env p devices w (ls ++ [.hangup c e])).ended = upd s.ended c (some e) := by
      rw [told_snoc]
      show ((told env p devices w ls).step env p (.hangup c e)).ended = _
      have he' : (told env p devices w ls).ended c = none := by rw [h.ended]; exact hen
      simp only [Net.step, hn, he', h.ended]
      rfl
    have hup : ∀ c', upd s.ended c (some e) c' = none → s.ended c' = none := by
      intro c' hh
      by_cases e1 : c' = c
      · subst e1; rw [upd_self] at hh; simp at hh
      · rwa [upd_ne _ _ e1] at hh
    refine ⟨hne, ?_, fun t f c' x hf ho hcm hh hx => h.ready t f c' x hf ho hcm (hup c' hh) hx, h.out, h.wait, h.idle, ?_⟩
    · intro c' hn
      have : c' ≠ c := by rintro rfl; exact hc hn
      simp only [upd_ne _ _ this]
      exact h.fresh c' hn
    · intro fut hp
      have hp' : Possible s fut := by
        intro c' e' he
        refine hp c' e' ?_
        have : c' ≠ c := by rintro rfl; rw [hen] at he; simp at he
        simpa only [upd_ne _ _ this] using he
      obtain ⟨ls', hR, hm, hF⟩ := h.fore _ hp'
      refine ⟨ls', hR, by rw [hm]; simp [serverStep], ?_⟩
      rw [told_snoc]
      have hfc : upcoming (told env p devices w ls) fut [.hangup c e] = fut := by
        funext c'
        unfold upcoming
        rw [h.ended]
        by_cases e1 : c' = c
        · subst e1
          rw [hen]
          simp only [sent, if_true]
          exact (hp c' e (by simp [upd_self])).symm
        · cases he : s.ended c' with
          | some e' => exact (hp' c' e' he).symm
          | none => simp only [sent]; rw [if_neg (fun hh => e1 hh.symm)]
      have := foresees_step env p fut (.hangup c e) [] _ _ (by rw [hfc]; exact hF)
      rw [upcoming_nil (s := { s with ended := upd s.ended c (some e) }) (by
        rw [← hne, told_snoc]; rfl) hp] at this
      exact this
  | take c x bs rest hc hi hb =>
    have hown : ∀ t f c', s.cfg.flights t = some f → f.owner = some c' → c' ≠ c := by
      rintro t f c' hf ho rfl
      exact hi t f hf ho
    have hne : told env p devices w (ls ++ [.take c]) = told env p devices w ls := by rw [told_snoc]; rfl
    refine ⟨by rw [hne]; exact h.ended, ?_, ?_, h.out, ?_, ?_, ?_⟩
    · intro c' hn
      by_cases e : c' = c
      · simp [setConn, e] at hn
      · simp only [setConn_ne e, upd_ne _ _ e] at hn ⊢; exact h.fresh c' hn
    · intro t f c' y hf ho hcm hen hx
      simp only [setConn_ne (hown t f c' hf ho)] at hx
      exact h.ready t f c' y hf ho hcm hen hx
    · intro t f c' hf ho hcm
      simp only [setConn_ne (hown t f c' hf ho)]
      exact h.wait t f c' hf ho hcm
    · intro c' hi'
      by_cases e : c' = c
      · subst e
        have := h.idle c' hi
        rw [hc] at this
        simpa [setConn, outOf] using this
      · simp only [setConn_ne e]; exact h.idle c' hi'
    · intro fut hp
      obtain ⟨ls', hR, hm, hF⟩ := h.fore fut hp
      refine ⟨ls', ?_, by rw [hm]; simp [serverStep], by rw [hne]; exact hF⟩
      have e1 : hearing (inSocket { s with
          cfg := { s.cfg with conns := setConn s.cfg.conns c { x with input := ⟨x.input.bytes ++ bs, x.input.fin⟩ } }
          buf := upd s.buf c rest } fut)
          { s.cfg with conns := setConn s.cfg.conns c { x with input := ⟨x.input.bytes ++ bs, x.input.fin⟩ } }
          = hearing (inSocket s fut) s.cfg := by
        unfold hearing
        congr 1
        · funext c'
          by_cases e : c' = c
          · subst e
            simp [setConn, hc, awaiting, inSocket, upd_self, hb]
          · simp [setConn_ne e, inSocket, upd_ne _ _ e]
        · funext t
          cases hf : s.cfg.flights t with
          | none => simp
          | some f =>
            simp only [Option.map_some, Option.some.injEq, hearFlight_eq]
            congr 1
            cases ho : f.owner with
            | none => rfl
            | some c' =>
              simp only [hearCode, inSocket, upd_ne _ _ (hown t f c' hf ho)]
      show Cfg.Reach _ _ _ _ _
      rw [e1]
      exact hR
  | iterate t c wr x ht hc hr hi hd =>
    refine ⟨by rw [told_ended]; exact h.ended, h.fresh, ?_, ?_, ?_, ?_, ?_⟩
    · intro u f c' y hf ho hcm hen hy
      by_cases e : u = t
      · subst e
        simp only [Cfg.put, upd_self, Option.some.injEq] at hf
        subst hf
        cases ho
        have hy : s.cfg.conns c = some y := hy
        rw [hc] at hy; cases hy
        exact hd
      · simp only [Cfg.put, upd_ne _ _ e] at hf
        exact h.ready u f c' y hf ho hcm hen hy
    · intro u f hf
      by_cases e : u = t
      · subst e
        simp only [Cfg.put, upd_self, Option.some.injEq] at hf
        subst hf
        have := h.idle c hi
        rw [hc] at this
        show Task.Out _ (some (s.got c))
        rw [this]
        exact iterTask_Out env p x wr
      · simp only [Cfg.put, upd_ne _ _ e] at hf
        exact h.out u f hf
    · intro u f c' hf ho hcm
      by_cases e : u = t
      · subst e
        simp only [Cfg.put, upd_self, Option.some.injEq] at hf
        subst hf
        cases ho
        exact h.idle c hi
      · simp only [Cfg.put, upd_ne _ _ e] at hf
        exact h.wait u f c' hf ho hcm
    · intro c' hi'
      refine h.idle c' (fun u f hf => hi' u f ?_)
      have e : u ≠ t := by rintro rfl; rw [ht] at hf; simp at hf
      simpa only [Cfg.put, upd_ne _ _ e] using hf
    · intro fut hp
      refine h.foretell (lb' := .start t (.iterate c wr)) fut hp ?_ rfl rfl (by intro c' wr hh; simp [Label.event] at hh)
        (by intro c' i hh; simp [Label.event] at hh)
      have := Cfg.Step.iterate (env := env) (p := p) (hearing (inSocket s fut) s.cfg) t c wr (awaiting x (inSocket s fut c))
        (hearing_none ht) (by simp [hearing, hc]) hr (hearing_idle.mpr hi)
      rw [inSocket_congr (s := s) (by rfl), hearing_put]
      rw [iterTask_hear env p x wr _ hd] at this
      exact this
  | iterateEnd t c wr x e ht hc hr hi he hb =>
    refine ⟨by rw [told_ended]; exact h.ended, h.fresh, ?_, ?_, ?_, ?_, ?_⟩
    · intro u f c' y hf ho hcm hen hy
      by_cases e1 : u = t
      · subst e1
        simp only [Cfg.put, upd_self, Option.some.injEq] at hf
        subst hf
        cases ho
        have hen : s.ended c = none := hen
        rw [he] at hen; simp at hen
      · simp only [Cfg.put, upd_ne _ _ e1] at hf
        exact h.ready u f c' y hf ho hcm hen hy
    · intro u f hf
      by_cases e1 : u = t
      · subst e1
        simp only [Cfg.put, upd_self, Option.some.injEq] at hf
        subst hf
        have := h.idle c hi
        rw [hc] at this
        show Task.Out _ (some (s.got c))
        rw [this]
        exact iterTask_Out env p { x with input := ⟨x.input.bytes, e⟩ } wr
      · simp only [Cfg.put, upd_ne _ _ e1] at hf
        exact h.out u f hf
    · intro u f c' hf ho hcm
      by_cases e1 : u = t
      · subst e1
        simp only [Cfg.put, upd_self, Option.some.injEq] at hf
        subst hf
        cases ho
        exact h.idle c hi
      · simp only [Cfg.put, upd_ne _ _ e1] at hf
        exact h.wait u f c' hf ho hcm
    · intro c' hi'
      refine h.idle c' (fun u f hf => hi' u f ?_)
      have e1 : u ≠ t := by rintro rfl; rw [ht] at hf; simp at hf
      simpa only [Cfg.put, upd_ne _ _ e1] using hf
    · intro fut hp
      refine h.foretell (lb' := .start t (.iterate c wr)) fut hp ?_ rfl rfl (by intro c' wr hh; simp [Label.event] at hh)
        (by intro c' i hh; simp [Label.event] at hh)
      have hin : inSocket s fut c = ⟨[], e⟩ := by simp [inSocket, hb, hp c e he]
      have := Cfg.Step.iterate (env := env) (p := p) (hearing (inSocket s fut) s.cfg) t c wr (awaiting x (inSocket s fut c))
        (hearing_none ht) (by simp [hearing, hc]) hr (hearing_idle.mpr hi)
      show Cfg.Step env p _ _ (hearing (inSocket s fut) (s.cfg.put t (some (Flight.start (.iterate c wr) (some c)
        (iterTask env p { x with input := ⟨x.input.bytes, e⟩ } wr)))))
      rw [hearing_put]
      have e2 : awaiting x (inSocket s fut c) = { x with input := ⟨x.input.bytes, e⟩ } := by simp [awaiting, hin]
      rw [e2] at this
      simp only [Flight.start, hearCode, hin]
      rw [iterTask_eof env p { x with input := ⟨x.input.bytes, e⟩ } wr e rfl]
      exact this
  | piece t c f k y bs ht ho hk hy hpre =>
    have hne : told env p devices w (ls ++ [.piece c bs]) = told env p devices w ls := by rw [told_snoc]; rfl
    have hcm := h.sending ht hk
    have hout := h.out t f ht
    refine ⟨by rw [hne]; exact h.ended, ?_, h.ready, ?_, ?_, ?_, ?_⟩
    · intro c' hn
      obtain ⟨x, hx, _⟩ := h.owned ht ho
      have : c' ≠ c := by rintro rfl; rw [show s.cfg.conns c' = none from hn] at hx; simp at hx
      simp only [upd_ne _ _ this]
      exact h.fresh c' hn
    · intro u g hg
      cases hgo : g.owner with
      | none => have := h.out u g hg; rw [hgo] at this; exact this
      | some c' =>
        by_cases e : c' = c
        · subst e
          have := h.owners ht hg ho hgo
          subst this
          rw [show s.cfg.flights t = some g from hg] at ht; cases ht
          rw [hk, ho] at hout
          rw [hk]
          simp only [Option.map_some, upd_self] at hout ⊢
          obtain ⟨z, hz, _, hz2⟩ := hout
          rw [hy] at hz; cases hz
          exact ⟨y, hy, hpre, hz2⟩
        · have := h.out u g hg
          rw [hgo] at this
          simpa only [Option.map_some, upd_ne _ _ e] using this
    · intro u g c' hg hgo hgc
      by_cases e : c' = c
      · subst e
        have := h.owners ht hg ho hgo
        subst this
        rw [show s.cfg.flights t = some g from hg] at ht; cases ht
        rw [hcm] at hgc; simp at hgc
      · simp only [upd_ne _ _ e]; exact h.wait u g c' hg hgo hgc
    · intro c' hi
      have e : c' ≠ c := by rintro rfl; exact hi t f ht ho
      simp only [upd_ne _ _ e]; exact h.idle c' hi
    · intro fut hp
      obtain ⟨ls', hR, hm, hF⟩ := h.fore fut hp
      exact ⟨ls', hR, by rw [hm]; simp [serverStep], by rw [hne]; exact hF⟩
  | sent t c f k y ht ho hk hy hgot =>
    have hcm := h.sending ht hk
    have st0 := Cfg.Step.send (env := env) (p := p) s.cfg t f k ht hk
    refine ⟨by rw [told_ended]; exact h.ended, h.fresh, ?_, ?_, ?_, ?_, ?_⟩
    · intro u g c' x hg hgo hgc hen hx
      by_cases e : u = t
      · subst e
        simp only [Cfg.put, upd_self, Option.some.injEq] at hg
        subst hg
        rw [hcm] at hgc; simp at hgc
      · simp only [Cfg.put, upd_ne _ _ e] at hg; exact h.ready u g c' x hg hgo hgc hen hx
    · intro u g hg
      by_cases e : u = t
      · subst e
        simp only [Cfg.put, upd_self, Option.some.injEq] at hg
        subst hg
        have := h.out u f ht
        rw [hk, ho] at this
        obtain ⟨z, hz, _, hz2⟩ := this
        rw [hy] at hz; cases hz
        show Task.Out k (f.owner.map s.got)
        rw [ho, Option.map_some, hgot]; exact hz2
      · simp only [Cfg.put, upd_ne _ _ e] at hg; exact h.out u g hg
    · intro u g c' hg hgo hgc
      by_cases e : u = t
      · subst e
        simp only [Cfg.put, upd_self, Option.some.injEq] at hg
        subst hg
        rw [hcm] at hgc; simp at hgc
      · simp only [Cfg.put, upd_ne _ _ e] at hg; exact h.wait u g c' hg hgo hgc
    · intro c' hi
      refine h.idle c' (fun u g hg hgo => ?_)
      by_cases e : u = t
      · subst e
        rw [ht] at hg; cases hg
        exact hi u { f with code := k } (by simp [Cfg.put, upd_self]) hgo
      · exact hi u g (by simp only [Cfg.put, upd_ne _ _ e]; exact hg) hgo
    · intro fut hp
      refine h.foretell (lb' := .inner t) fut hp ?_ rfl rfl (by intro c' wr hh; simp [Label.event] at hh)
        (by intro c' i hh; simp [Label.event] at hh)
      rw [inSocket_congr (s := s) (by rfl)]
      exact hearing_step _ st0 (by simp) (by simp)
  | other lb cfg' st0 h1 h2 h3 =>
    have hown : ∀ t u f g c, s.cfg.flights t = some f → s.cfg.flights u = some g → f.owner = some c →
        g.owner = some c → t = u := fun t u f g c hf hg => h.owners hf hg
    refine ⟨by rw [told_ended]; exact h.ended, ?_, ?_, ?_, ?_, ?_, ?_⟩
    · intro c hn
      exact h.fresh c (step_none st0 hn)
    · intro t g c x hg hgo hgc hen hx
      obtain ⟨f, hf, hfo, hfc, hcn⟩ := step_flight hown st0 h1 h2 t g c hg hgo
      have hx : cfg'.conns c = some x := hx
      rw [hcn] at hx
      exact h.ready t f c x hf hfo (by
        cases e : f.committed with
        | false => rfl
        | true => rw [hfc e] at hgc; simp at hgc) hen hx
    · intro t g hg
      cases hf : s.cfg.flights t with
      | none =>
        obtain ⟨a, b⟩ := step_new st0 h2 t g hf hg
        rw [a]; exact b
      | some f =>
        rw [step_owner st0 t f g hf hg]
        exact step_out st0 h2 h3 t f g hf hg _ (h.out t f hf)
    · intro t g c hg hgo hgc
      obtain ⟨f, hf, hfo, hfc, hcn⟩ := step_flight hown st0 h1 h2 t g c hg hgo
      show s.got c = outOf (cfg'.conns c)
      rw [hcn]
      exact h.wait t f c hf hfo (by
        cases e : f.committed with
        | false => rfl
        | true => rw [hfc e] at hgc; simp at hgc)
    · intro c hi
      show s.got c = outOf (cfg'.conns c)
      rcases step_idle st0 h1 c hi with ⟨hi0, he⟩ | ⟨t, f, hf, hfo, hh⟩
      · rw [he]; exact h.idle c hi0
      · have hout := h.out t f hf
        rw [hfo] at hout
        rcases hh with ⟨y, hy, hcy⟩ | ⟨r, hdn⟩ | ⟨hcm, he⟩
        · rw [hy] at hout
          obtain ⟨z, hz, hzo⟩ := hout
          cases hz
          rw [hcy]; exact hzo.symm
        · rw [hdn] at hout
          obtain ⟨z, hz, _⟩ := hout
          simp at hz
        · rw [he]; exact h.wait t f c hf hfo hcm
    · intro fut hp
      refine h.foretell (lb' := lb) fut hp ?_ (bare_other h1) rfl ?_ ?_
      · rw [inSocket_congr (s := s) (by rfl)]
        exact hearing_step _ st0 h1 h2
      · intro c wr hev
        obtain ⟨t, f, g, k, hf, hk, hfe⟩ := step_event st0 hev
        rcases h.kind hf with ⟨c', wr', e1, e2⟩ | ⟨⟨d, e1⟩ | ⟨i, e1⟩, _⟩
        · rw [hfe] at e1; cases e1
          refine h.readyNow hf e2 ?_
          obtain ⟨ls', hr, _, _⟩ := h.fore _ (someFuture_possible s)
          obtain ⟨d, hwl, _⟩ := ((CInv.reach hr).fl t _ (hearing_flight hf)).prog
          dsimp only at hwl
          rw [hk, e2] at hwl
          exact hwl.1
        · rw [hfe] at e1; simp at e1
        · rw [hfe] at e1; simp at e1
      · intro c i hev
        exfalso
        cases st0 with
        | connect c input hc => exact absurd rfl (h1 _ _)
        | commit t f g k ht hk =>
          simp only [Label.event, Option.some.injEq] at hev
          rcases h.kind ht with ⟨c', wr', e1, e2⟩ | ⟨⟨d, e1⟩ | ⟨i, e1⟩, _⟩ <;> rw [hev] at e1 <;> simp at e1
        | abandon t f ht hc => cases ho : f.owner <;> simp [Label.event, ho] at hev
        | _ => simp [Label.event] at hev

theorem TInv.reach {σ} {env : Env σ} {p : Profile} {devices : List Device} {w : World σ} {ls : List (TcpLabel σ)}
    {s : Tcp σ} (h : Tcp.Reach env p (Tcp.init devices w) ls s) : TInv env p devices w ls s := by
  induction h with
  | refl => exact tinv_init env p devices w
  | tail _ st ih => exact ih.step st

end Usbip
