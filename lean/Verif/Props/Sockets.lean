import Verif.Lemmas.TcpRealise
import Verif.Props.Network
import Verif.Props.Locks
import Verif.Props.Reference
/-!
# Tasks, locks and sockets together: C79
-/

namespace Usbip
open Spec Samples

/-- C79: at every moment of every execution, with bytes arriving and replies leaving piece by piece,
with tasks interleaved in any way and dropped anywhere, the server is the server that serves one
operation at a time, in the order in which the operations have taken effect: the state of the handlers,
the tables (unless somebody is changing them), every connection that is between commands, with the
bytes that have arrived for it.  Every client has received a beginning of what that server has sent to
it, and all of it if its connection is between commands. -/
theorem C79_explained {σ} (env : Env σ) (p : Profile) (devices : List Device) (w : World σ)
    (ls : List (TcpLabel σ)) (s : Tcp σ) (h : Tcp.Reach env p (Tcp.init devices w) ls s) :
    let n := (Net.init devices w).run env p (ls.filterMap tcpEvent)
    s.cfg.shared.world = n.sys.shared.world ∧ s.ended = n.ended ∧
    (∀ c, s.cfg.idle c → n.sys.conns c = (s.cfg.conns c).map (fun x =>
      { x with input := ⟨x.input.bytes ++ s.buf c, (s.ended c).getD .unexpectedEof⟩ })) ∧
    ((∀ t f, s.cfg.flights t = some f → f.held .used ≠ some .w) → s.cfg.shared.used = n.sys.shared.used) ∧
    ((∀ t f, s.cfg.flights t = some f → f.held .avail ≠ some .w) →
      s.cfg.shared.available = n.sys.shared.available) ∧
    (∀ c, s.got c <+: sentTo n c) ∧
    (∀ c, s.cfg.idle c → s.got c = sentTo n c) := by
  have hT := TInv.reach h
  obtain ⟨ls', hr, _, hF⟩ := hT.fore _ (someFuture_possible s)
  have hC := CInv.reach hr
  have hopen := openFin_run env p (ls.filterMap tcpEvent) (Net.init devices w)
    (by intro c x hx; simp [Net.init, Sys.init] at hx)
  have hend := hT.ended
  have hfin := hF.fin
  have hconn := fun c hc => (hT.fore _ (someFuture_possible s)).conn c hc
  unfold told at hF hend hfin hconn
  have idleConn : ∀ c, s.cfg.idle c → ((Net.init devices w).run env p (ls.filterMap tcpEvent)).sys.conns c
      = (s.cfg.conns c).map (fun x =>
        { x with input := ⟨x.input.bytes ++ s.buf c, (s.ended c).getD .unexpectedEof⟩ }) := by
    intro c hi
    have e := hconn c (fun t f hf _ => hi t f hf)
    generalize (Net.init devices w).run env p (ls.filterMap tcpEvent) = n at *
    cases hn : n.sys.conns c with
    | none =>
      rw [hn] at e
      cases hx : s.cfg.conns c with
      | none => rfl
      | some x => rw [hx] at e; simp at e
    | some y =>
      rw [hn] at e
      cases hx : s.cfg.conns c with
      | none => rw [hx] at e; simp at e
      | some x =>
        rw [hx] at e
        simp only [Option.map_some, Option.some.injEq] at e ⊢
        obtain ⟨a1, a2, a3, a4, a5⟩ := awaiting_inj e
        have hf : y.input.fin = (s.ended c).getD .unexpectedEof := by
          cases he : s.ended c with
          | none => exact hopen c y hn (by rw [hend]; exact he)
          | some e => exact hfin c y e hn (by rw [hend]; exact he)
        obtain ⟨⟨yb, yf⟩, _, _, _, _⟩ := y
        simp only at a1 a2 a3 a4 a5 hf
        subst a1 a2 a3 a4 a5 hf
        rfl
  have same : ∀ (n : Net σ) (c : Nat) (x : Conn), n.sys.conns c = some x → sentTo n c = x.output := by
    intro n c x hx; unfold sentTo; rw [hx]
  have idleSent : ∀ c, s.cfg.idle c → s.got c = sentTo ((Net.init devices w).run env p (ls.filterMap tcpEvent)) c := by
    intro c hi
    rw [hT.idle c hi]
    have := idleConn c hi
    unfold sentTo
    rw [this]
    cases s.cfg.conns c <;> rfl
  refine ⟨?_, hend.symm, idleConn, fun hn => ?_, fun hn => ?_, ?_, idleSent⟩
  · rw [← hF.shared]; exact hC.world.symm
  · rw [← hF.shared]
    exact (hC.data .used (fun t g hg _ => by
      obtain ⟨f, hf, rfl⟩ := hearing_flight_inv hg
      exact hn t f hf)).symm
  · rw [← hF.shared]
    exact (hC.data .avail (fun t g hg _ => by
      obtain ⟨f, hf, rfl⟩ := hearing_flight_inv hg
      exact hn t f hf)).symm
  · intro c
    by_cases hi : s.cfg.idle c
    · rw [idleSent c hi]; exact List.prefix_rfl
    · obtain ⟨t, f, hf, ho⟩ : ∃ t f, s.cfg.flights t = some f ∧ f.owner = some c :=
        Classical.byContradiction fun hno => hi (fun t f hf ho => hno ⟨t, f, hf, ho⟩)
      cases hcm : f.committed with
      | false =>
        have e := hconn c (fun u g hg hgc hgo => by
          have := hT.owners hf hg ho hgo
          subst this
          rw [hf] at hg; cases hg
          rw [hcm] at hgc; simp at hgc)
        rw [hT.wait t f c hf ho hcm]
        unfold sentTo outOf
        cases hx : s.cfg.conns c with
        | none => exact List.nil_prefix
        | some x =>
          rw [hx] at e
          simp only [Option.map_some, Option.map_eq_some_iff] at e
          obtain ⟨y, hy, e⟩ := e
          rw [hy]
          dsimp only
          rw [(awaiting_inj e).2.2.1]
          exact List.prefix_rfl
      | true =>
        obtain ⟨e, _⟩ := (hC.fl t _ (hearing_flight hf)).conn hcm c ho
        have hout := hT.out t f hf
        rw [ho] at hout
        obtain ⟨y, hy, hpre⟩ := Out_exec f.code _ s.cfg.shared hout
        rw [hF.conns c] at e
        dsimp only at e
        rw [ho] at e
        simp only [hearCode] at e
        rw [show (hearing (inSocket s (someFuture s)) s.cfg).shared = s.cfg.shared from rfl, hear_exec, hy] at e
        simp only [hearEnd, Ended.conn?, Option.map_eq_some_iff] at e
        obtain ⟨z, hz, e⟩ := e
        rw [same _ c z hz, show z.output = y.output from (awaiting_inj e).2.2.1]
        exact hpre

/-- C79: with hindsight, an execution on sockets is one of the lock-level model, with the same tasks
doing the same steps in the same order under the same locks, whatever the clients will send later. -/
theorem C79_hindsight {σ} (env : Env σ) (p : Profile) (devices : List Device) (w : World σ)
    (ls : List (TcpLabel σ)) (s : Tcp σ) (h : Tcp.Reach env p (Tcp.init devices w) ls s) (fut : Nat → Stream)
    (hfut : ∀ c e, s.ended c = some e → fut c = ⟨[], e⟩) :
    ∃ ls', Cfg.Reach env p (Cfg.init devices w) ls' (hearing (inSocket s fut) s.cfg) ∧
      ls'.map bare = ls.filterMap serverStep := by
  obtain ⟨ls', hr, hm, _⟩ := (TInv.reach h).fore fut hfut
  exact ⟨ls', hr, hm⟩

/-- C79: at every moment at which nothing is in progress, the whole state is that of the interactive history. -/
theorem C79_quiet {σ} (env : Env σ) (p : Profile) (devices : List Device) (w : World σ)
    (ls : List (TcpLabel σ)) (s : Tcp σ) (h : Tcp.Reach env p (Tcp.init devices w) ls s)
    (hq : ∀ t, s.cfg.flights t = none) :
    (Net.init devices w).run env p (ls.filterMap tcpEvent) =
      { sys := { shared := s.cfg.shared, conns := fun c => (s.cfg.conns c).map (fun x =>
          { x with input := ⟨x.input.bytes ++ s.buf c, (s.ended c).getD .unexpectedEof⟩ }) }
        ended := s.ended } := by
  obtain ⟨h1, h2, h3, h4, h5, _⟩ := C79_explained env p devices w ls s h
  have hno : ∀ (l : Lk) t f, s.cfg.flights t = some f → f.held l ≠ some .w := by
    intro l t f hf; rw [hq t] at hf; simp at hf
  have hi : ∀ c, s.cfg.idle c := fun c t f hf => by rw [hq t] at hf; simp at hf
  replace h4 := h4 (hno .used)
  replace h5 := h5 (hno .avail)
  replace h3 := funext fun c => h3 c (hi c)
  generalize (Net.init devices w).run env p (ls.filterMap tcpEvent) = n at *
  obtain ⟨⟨⟨na, nu, nw⟩, nc⟩, ne⟩ := n
  cases hs : s.cfg.shared with
  | mk sa su sw =>
    simp only [hs] at h1 h2 h3 h4 h5
    subst h1 h4 h5 h3 h2
    rfl

/-- C79: whatever is true of all interactive histories of a server that serves one operation at a time
is true whenever nothing is in progress. -/
theorem C79_transfer {σ} (env : Env σ) (p : Profile) (devices : List Device) (w : World σ)
    (P : Net σ → Prop) (hP : ∀ es, P ((Net.init devices w).run env p es))
    (ls : List (TcpLabel σ)) (s : Tcp σ) (h : Tcp.Reach env p (Tcp.init devices w) ls s)
    (hq : ∀ t, s.cfg.flights t = none) :
    P { sys := { shared := s.cfg.shared, conns := fun c => (s.cfg.conns c).map (fun x =>
          { x with input := ⟨x.input.bytes ++ s.buf c, (s.ended c).getD .unexpectedEof⟩ }) }
        ended := s.ended } := by
  rw [← C79_quiet env p devices w ls s h hq]
  exact hP _

/-- C79 and C76: whatever the interleaving, every client has received a beginning of what the reference
server has sent to it after the operations that have taken effect, and all of it if its connection is
between commands. -/
theorem C79_reference {σ} (env : Env σ) (p : Profile) (devices : List Device) (w : World σ)
    (ls : List (TcpLabel σ)) (s : Tcp σ) (h : Tcp.Reach env p (Tcp.init devices w) ls s)
    (hd : (devices.map Device.busId).Nodup)
    (ht : TidyLive env p (Live.start devices w) (ls.filterMap tcpEvent)) (c : Nat) :
    let r := ((Live.start devices w).run env p (ls.filterMap tcpEvent)).server
    s.cfg.shared.world = r.world ∧
    (∀ y, r.clients c = some y → s.got c <+: y.sent ∧
      (s.cfg.idle c → s.got c = y.sent ∧ ∃ x, s.cfg.conns c = some x ∧ x.status = y.status)) ∧
    (r.clients c = none → s.got c = [] ∧ s.cfg.conns c = none) := by
  obtain ⟨h1, _, h3, _, _, h6, h7⟩ := C79_explained env p devices w ls s h
  have hT := TInv.reach h
  have ha := C76_interactive env p devices w _ hd ht
  have hc := ha.conns c
  have h6 := h6 c
  have h7 := h7 c
  have h3 := h3 c
  have hth := fun hne => hT.there (c := c) hne
  unfold told at hth
  unfold Seen at hc
  unfold sentTo at h6 h7
  generalize ((Live.start devices w).run env p (ls.filterMap tcpEvent)).server = r at *
  generalize (Net.init devices w).run env p (ls.filterMap tcpEvent) = n at *
  refine ⟨h1.trans ha.world, ?_, ?_⟩
  · intro y hy
    rw [hy] at hc
    simp only [Option.map_some, Option.map_eq_some_iff, Prod.mk.injEq] at hc
    obtain ⟨x, hx, _, e2, e3⟩ := hc
    rw [hx] at h6 h7 h3
    refine ⟨by rw [← e2]; exact h6, fun hi => ⟨by rw [← e2]; exact h7 hi, ?_⟩⟩
    have h3 := h3 hi
    cases hx' : s.cfg.conns c with
    | none => rw [hx'] at h3; simp at h3
    | some x' =>
      rw [hx'] at h3
      simp only [Option.map_some, Option.some.injEq] at h3
      refine ⟨x', rfl, ?_⟩
      rw [← e3, h3]
  · intro hy
    rw [hy] at hc
    simp only [Option.map_none, Option.map_eq_none_iff] at hc
    rw [hc] at h6
    refine ⟨List.prefix_nil.mp h6, ?_⟩
    cases hx : s.cfg.conns c with
    | none => rfl
    | some x =>
      obtain ⟨y, hy⟩ := hth (by rw [hx]; simp)
      rw [hc] at hy; simp at hy

/-- C79: conversely, every interactive history happens on sockets, with the server at rest at its end;
events that have no effect (an iteration that waits for bytes) are left out. -/
theorem C79_realised {σ} (env : Env σ) (p : Profile) (devices : List Device) (w : World σ)
    (es : List (NetEvent σ)) :
    let n := (Net.init devices w).run env p es
    ∃ ls s, Tcp.Reach env p (Tcp.init devices w) ls s ∧ (∀ t, s.cfg.flights t = none) ∧
      (ls.filterMap tcpEvent).Sublist es ∧ s.cfg.shared = n.sys.shared ∧ s.ended = n.ended ∧
      (∀ c, s.got c = sentTo n c) ∧
      ∀ c, (s.cfg.conns c).map (fun x =>
        { x with input := ⟨x.input.bytes ++ s.buf c, (s.ended c).getD .unexpectedEof⟩ }) = n.sys.conns c := by
  have none : ∀ {s : Cfg σ}, AtRest s → ∀ t, s.flights t = none := by
    rintro s ⟨sh, conns, rfl⟩ t; rfl
  obtain ⟨ls, s, hr, hc, heq, hsub⟩ := calm_run env p devices w
    (fun ls s h hc => C79_quiet env p devices w ls s h (none hc)) es
  have hq := C79_quiet env p devices w ls s hr (none hc)
  have hgot := (C79_explained env p devices w ls s hr).2.2.2.2.2.2
  rw [heq] at hq hgot
  refine ⟨ls, s, hr, none hc, hsub, by rw [hq], by rw [hq],
    fun c => hgot c (fun t f hf => by rw [none hc t] at hf; simp at hf), fun c => by rw [hq]⟩

/-- C79: while no `remove_device` call is waiting for the used devices (see `C34_fails`), as long as some operation is pending, some task can get further, or some
client can be handed the next byte of a reply. -/
theorem C79_progress {σ} (env : Env σ) (p : Profile) (devices : List Device) (w : World σ)
    (ls : List (TcpLabel σ)) (s : Tcp σ) (h : Tcp.Reach env p (Tcp.init devices w) ls s)
    (hfl : ∃ t f, s.cfg.flights t = some f)
    (hno : ∀ t f i m k, s.cfg.flights t = some f → f.ev = .removeDevice i → f.code ≠ .lock .used m k) :
    (∃ lb s', Tcp.Step env p s (.server lb) s' ∧ Advances lb) ∨
    ∃ c b s', Tcp.Step env p s (.piece c [b]) s' := by
  have hT := TInv.reach h
  obtain ⟨ls', hr, _⟩ := hT.fore _ (someFuture_possible s)
  obtain ⟨t0, f0, h0⟩ := hfl
  obtain ⟨lb, s', st, ha⟩ := C34_progress_partial env p devices w ls' _ hr ⟨t0, _, hearing_flight h0⟩
    (fun t g i m k hg hev hk => by
      obtain ⟨f, hf, rfl⟩ := hearing_flight_inv hg
      obtain ⟨k', hk'⟩ := hearCode_lock hk
      exact hno t f i m k' hf hev hk')
  obtain ⟨t, g, hg, hl⟩ := advancing st ha
  obtain ⟨f, hf, rfl⟩ := hearing_flight_inv hg
  by_cases hs : ∃ k, f.code = .send k
  · obtain ⟨k, hk⟩ := hs
    have hout := hT.out t f hf
    rw [hk] at hout
    cases ho : f.owner with
    | none => rw [ho] at hout; exact absurd hout id
    | some c =>
      rw [ho] at hout
      obtain ⟨y, hy, ⟨rest, hrest⟩, _⟩ := hout
      cases rest with
      | nil =>
        rw [List.append_nil] at hrest
        exact .inl ⟨_, _, .sent s t c f k y hf ho hk hy hrest, trivial⟩
      | cons b rest => exact .inr ⟨c, b, _, .piece s t c f k y [b] hf ho hk hy ⟨rest, by
          rw [← hrest, List.append_assoc]; rfl⟩⟩
  · refine .inl (tcp_further s hf (fun k hk => hs ⟨k, hk⟩) (fun l m k hk hw => ?_))
    obtain ⟨q, hq, hc⟩ := hl l m (hearCode _ f.owner k) (by
      dsimp only; rw [hk]; cases f.owner <;> rfl) hw
    exact ⟨q, hq, fun u g h hu hh => hc u _ h (hearing_flight hu) hh⟩

/-! ### Concrete cases -/

/-- A lone program takes a lock that nobody holds. -/
theorem lone_lock {σ} (env : Env σ) (p : Profile) (sh : Shared σ) (conns : Nat → Option Conn) (t : Nat) (ev : Event σ)
    (o : Option Nat) (l : Lk) (m : Mode) (k : Task σ) (held : Lk → Option Mode) (c : Bool) (buf : Nat → Bytes)
    (ended : Nat → Option ErrKind) (got : Nat → Bytes) (hl : held l = none) :
    Tcp.Reach env p ⟨Cfg.lone sh conns t ⟨ev, o, .lock l m k, held, false, c⟩, buf, ended, got⟩
      [.server (.inner t), .server (.inner t)]
      ⟨Cfg.lone sh conns t ⟨ev, o, k, upd held l (some m), false, c⟩, buf, ended, got⟩ := by
  refine .step (.other _ _ _ (.request _ t _ l m k (Cfg.lone_at _ _ _ _) rfl rfl) (by simp) (by simp) ?_)
    (.step (.other _ _ _ (.grant _ t ⟨ev, o, .lock l m k, held, true, c⟩ l m k []
      (by simp [Cfg.lone, Cfg.put, upd_self]) rfl rfl (by simp [upd_self, Cfg.lone]) ?_) (by simp) (by simp) ?_) ?_)
  · intro t' f k' e hf
    cases e
    rw [Cfg.lone_at] at hf; cases hf; simp
  · intro u g hh hu hg
    by_cases e : u = t
    · subst e
      simp only [Cfg.put, upd_self, Option.some.injEq] at hu
      subst hu
      dsimp only at hg; rw [hl] at hg; simp at hg
    · simp [Cfg.put, Cfg.lone, upd_ne _ _ e] at hu
  · intro t' f k' e hf
    cases e
    simp only [Cfg.put, upd_self, Option.some.injEq] at hf
    subst hf; simp
  · simp only [Cfg.lone, Cfg.put, upd_upd]
    rw [upd_eq_self (fun _ => ([] : List Nat)) l]
    exact .refl

/-- A lone program that lists the devices gets to sending its reply. -/
theorem lone_devlist {σ} (env : Env σ) (p : Profile) (sh : Shared σ) (conns : Nat → Option Conn) (t : Nat) (ev : Event σ)
    (o : Option Nat) (x : Conn) (rest : Stream) (cmd : Cmd) (w : WriteRes) (buf : Nat → Bytes)
    (ended : Nat → Option ErrKind) (got : Nat → Bytes) :
    ∃ ls, Tcp.Reach env p ⟨Cfg.lone sh conns t (Flight.start ev o (devlistTask p x rest cmd w)), buf, ended, got⟩ ls
      ⟨Cfg.lone sh conns t ⟨ev, o, .send <| .unlock .avail <| .unlock .used <|
          .done (.conn (x.finish p rest cmd w x.current (.ok (opRepDevlist sh.available)))),
        upd (upd (fun _ => none) .used (some .r)) .avail (some .r), false, true⟩, buf, ended, got⟩ ∧
      ls.filterMap tcpEvent = [live ev] ∧ ∀ u ev', TcpLabel.server (.start u ev') ∉ ls := by
  have lift : ∀ (lb : Label σ) (f : Flight σ) (c' : Cfg σ), Cfg.Step env p (Cfg.lone sh conns t f) lb c' →
      (∀ k, f.code ≠ .send k) → (lb = .inner t ∨ lb = .effect t f.ev) →
      Tcp.Reach env p ⟨Cfg.lone sh conns t f, buf, ended, got⟩ [.server lb] ⟨c', buf, ended, got⟩ := by
    intro lb f c' st hs hlb
    refine .step (.other _ lb c' st ?_ ?_ ?_) .refl
    · rcases hlb with rfl | rfl <;> simp
    · rcases hlb with rfl | rfl <;> simp
    · intro t' g k e hg
      rcases hlb with rfl | rfl
      · cases e
        rw [Cfg.lone_at] at hg; cases hg
        exact hs k
      · simp at e
  have h1 := lone_lock env p sh conns t ev o .used .r (.lock .avail .r <| .commit id fun _ =>
    .getAvail fun a => .send <| .unlock .avail <| .unlock .used <|
    .done (.conn (x.finish p rest cmd w x.current (.ok (opRepDevlist a))))) (fun _ => none) false buf ended got rfl
  have h2 := h1.trans (lone_lock env p sh conns t ev o .avail .r _ _ false buf ended got rfl)
  have h3 := h2.trans (lift _ _ _ (.commit _ t _ id _ (Cfg.lone_at _ _ _ _) rfl) (by simp) (.inr rfl))
  rw [Cfg.lone_put] at h3
  have h4 := h3.trans (lift _ _ _ (.getAvail _ t _ _ (Cfg.lone_at _ _ _ _) rfl) (by simp) (.inl rfl))
  rw [Cfg.lone_put] at h4
  exact ⟨_, h4, rfl, by simp⟩

/-- A client asks for the device list in two pieces, receives three bytes of the reply and has sent
two bytes of its next request, while the task still holds both locks.  All of C79's conclusions speak
of this state: the operation has taken effect, its reply has not been received. -/
theorem half_reply : ∃ ls s f, Tcp.Reach Samples.env dev (Tcp.init [devA] world) ls s ∧
    s.cfg.flights 0 = some f ∧ f.owner = some 0 ∧ f.held .used = some .r ∧ f.held .avail = some .r ∧
    s.got 0 = [1, 17, 0] ∧ s.buf 0 = [1, 17] ∧
    ls.filterMap tcpEvent = [.connect 0, .arrive 0 [1, 17, 128], .arrive 0 [5, 0, 0, 0, 0], .iterate 0 .full,
      .arrive 0 [1, 17]] ∧
    ∃ k y, f.code = .send k ∧ k.final = some y ∧ y.output.length = 12 + 312 + 4 * devA.interfaces.length ∧
    (∀ t, t ≠ 0 → s.cfg.flights t = none) ∧ (∀ c, c ≠ 0 → s.cfg.conns c = none) ∧ (∀ l, s.cfg.queue l = []) ∧
    s.buf 1 = [] ∧ s.got 1 = [] ∧ s.ended 1 = none ∧ ∀ t ev, TcpLabel.server (.start t ev) ∈ ls → ev = .iterate 0 .full := by
  have r1 := Tcp.Reach.tail .refl (.connect (env := Samples.env) (p := dev) (Tcp.init [devA] world) 0 rfl)
  have r2 := Tcp.Reach.tail r1 (.arrive _ 0 [1, 17, 128] (by simp [setConn]) rfl)
  have r3 := Tcp.Reach.tail r2 (.take _ 0 (Conn.new ⟨[], .unexpectedEof⟩) [1, 17, 128] [] rfl
    (fun t f h => by simp [Tcp.init, Cfg.init] at h) rfl)
  have r4 := Tcp.Reach.tail r3 (.arrive _ 0 [5, 0, 0, 0, 0] (by simp [setConn]) rfl)
  have r5 := Tcp.Reach.tail r4 (.take _ 0 (Conn.new ⟨[1, 17, 128], .unexpectedEof⟩) [5, 0, 0, 0, 0] [] rfl
    (fun t f h => by simp [Tcp.init, Cfg.init] at h) rfl)
  have r6 := Tcp.Reach.tail r5 (.iterate _ 0 0 .full (Conn.new ⟨[1, 17, 128, 5, 0, 0, 0, 0], .unexpectedEof⟩) rfl rfl rfl
    (fun t f h => by simp [Tcp.init, Cfg.init] at h) (by
      show (readCommand dev : Rd Arrived Cmd) ⟨[1, 17, 128, 5, 0, 0, 0, 0]⟩ ≠ _
      rw [show (readCommand dev : Rd Arrived Cmd) ⟨[1, 17, 128, 5, 0, 0, 0, 0]⟩ = .ok (.reqDevlist 0, ⟨[]⟩) from rfl]
      simp))
  have hcode : iterTask Samples.env dev (Conn.new ⟨[1, 17, 128, 5, 0, 0, 0, 0], .unexpectedEof⟩) .full
      = devlistTask dev (Conn.new ⟨[1, 17, 128, 5, 0, 0, 0, 0], .unexpectedEof⟩) ⟨[], .unexpectedEof⟩ (.reqDevlist 0) .full := rfl
  rw [hcode] at r6
  generalize hb : (⟨[1, 17, 128, 5, 0, 0, 0, 0], .unexpectedEof⟩ : Stream) = b at r6
  obtain ⟨ls, r7, hls, hns⟩ := lone_devlist Samples.env dev (Shared.newSimulated [devA] world)
    (setConn (fun _ => none) 0 (Conn.new b)) 0 (.iterate 0 .full) (some 0) (Conn.new b)
    ⟨[], .unexpectedEof⟩ (.reqDevlist 0) .full (fun _ => []) (fun _ => none) (fun _ => [])
  have e6 : ∀ (s s' : Tcp Nat) (l : List (TcpLabel Nat)), s = s' → Tcp.Reach Samples.env dev (Tcp.init [devA] world) l s →
      Tcp.Reach Samples.env dev (Tcp.init [devA] world) l s' := by
    intro s s' l e h; rw [← e]; exact h
  have r8 := (e6 _ ⟨Cfg.lone (Shared.newSimulated [devA] world) (setConn (fun _ => none) 0 (Conn.new b)) 0
    (Flight.start (.iterate 0 .full) (some 0) (devlistTask dev (Conn.new b) ⟨[], .unexpectedEof⟩ (.reqDevlist 0) .full)),
    fun _ => [], fun _ => none, fun _ => []⟩ _ ?_ r6).trans r7
  · have hy : ((Conn.new b).finish dev ⟨[], .unexpectedEof⟩ (.reqDevlist 0) .full (Conn.new b).current
        (.ok (opRepDevlist [devA]))).output.length = 12 + 312 + 4 * devA.interfaces.length ∧
        [1, 17, 0] <+: ((Conn.new b).finish dev ⟨[], .unexpectedEof⟩ (.reqDevlist 0) .full (Conn.new b).current
        (.ok (opRepDevlist [devA]))).output := by
      subst hb
      decide +kernel
    have r9 := Tcp.Reach.tail r8 (.piece _ 0 0 _ _ _ [1, 17, 0] (Cfg.lone_at _ _ _ _) rfl rfl rfl hy.2)
    have r10 := Tcp.Reach.tail r9 (.arrive _ 0 [1, 17] (by simp [setConn, Cfg.lone]) rfl)
    refine ⟨_, _, _, r10, Cfg.lone_at _ _ _ _, rfl, rfl, rfl, rfl, rfl, ?_, _, _, rfl, rfl, hy.1,
      fun t ht => by simp [Cfg.lone, upd_ne _ _ ht], fun c hc => by simp [Cfg.lone, setConn, hc], fun l => rfl, rfl, rfl, rfl,
      fun t ev hm => ?_⟩
    · simp only [List.filterMap_append, hls]
      rfl
    · simp only [List.mem_append, List.mem_singleton, List.not_mem_nil, false_or] at hm
      have : t = 0 ∧ ev = .iterate 0 .full := by simpa [hns] using hm
      exact this.2
  · subst hb
    simp only [Tcp.init, Cfg.init, Cfg.put, Cfg.lone, Tcp.mk.injEq, Cfg.mk.injEq]
    refine ⟨⟨trivial, ?_, trivial, trivial⟩, ?_, trivial, trivial⟩
    · funext c; by_cases e : c = 0 <;> simp [setConn, e, Conn.new]
    · funext c; by_cases e : c = 0 <;> simp [upd, e]

/-- The interactive history of C73's example happens on sockets: both clients are served, the second
gets the device the first has given back. -/
example : ∃ ls s, Tcp.Reach Samples.env dev (Tcp.init [devA] world) ls s ∧ (∀ t, s.cfg.flights t = none) ∧
    (s.cfg.conns 0).map (fun x => (x.served.length, x.current, x.status)) = some (2, none, .closed) ∧
    (s.cfg.conns 1).map (fun x => (x.served.length, x.current, x.status)) = some (2, some [49, 45, 49], .running) ∧
    (s.got 0).length = (s.got 1).length + 312 + 4 * devA.interfaces.length := by
  let list := wireCmd (.reqDevlist 0)
  let imp := wireCmd (.reqImport 0 busA)
  let es : List (NetEvent Nat) :=
    [.connect 0, .arrive 0 (list.take 3), .iterate 0 .full, .connect 1, .arrive 0 (list.drop 3),
     .iterate 0 .full, .iterate 0 .full, .arrive 0 imp, .arrive 1 list, .iterate 0 .full, .iterate 1 .full,
     .arrive 1 imp, .hangup 0 .unexpectedEof, .iterate 0 .full, .iterate 1 .full]
  have hn : let n := (Net.init [devA] world).run Samples.env dev es
      (n.sys.conns 0).map (fun x => (x.served.length, x.current, x.status)) = some (2, none, .closed) ∧
      (n.sys.conns 1).map (fun x => (x.served.length, x.current, x.status)) = some (2, some [49, 45, 49], .running) ∧
      (sentTo n 0).length = (sentTo n 1).length + 312 + 4 * devA.interfaces.length := by
    decide +kernel
  obtain ⟨ls, s, hr, hq, _, _, _, hg, hc⟩ := C79_realised Samples.env dev [devA] world es
  refine ⟨ls, s, hr, hq, ?_, ?_, ?_⟩
  · rw [← hn.1, ← hc 0, Option.map_map]; rfl
  · rw [← hn.2.1, ← hc 1, Option.map_map]; rfl
  · rw [hg 0, hg 1]; exact hn.2.2

end Usbip
