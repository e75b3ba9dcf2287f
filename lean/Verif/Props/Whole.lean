import Verif.Lemmas.Whole
import Verif.Props.Sockets
import Verif.Props.Mutex
/-!
# Handler code, locks and sockets together: C81
-/

namespace Usbip
open Spec Samples

/-- C81: what the server's programs do at their `commit` when they run on sockets: exactly the handler call of
the command their connection has received, with the used devices locked for reading; or, when there
is none, nothing that involves a handler. -/
theorem C81_calls {σ} (env : Env σ) (p : Profile) (devices : List Device) (w : World σ)
    (ls : List (TcpLabel σ)) (s : Tcp σ) (h : Tcp.Reach env p (Tcp.init devices w) ls s)
    (t : Nat) (f : Flight σ) (g : World σ → World σ) (k : World σ → Task σ) (ht : s.cfg.flights t = some f)
    (hk : f.code = .commit g k) :
    (s.cfg.call p f = none → Passive g k) ∧
    ∀ c, s.cfg.call p f = some c → f.held .used = some .r ∧ ∃ cont, Runs env g k c cont := by
  have := tcp_covered h t f g k ht hk
  refine ⟨fun e => ?_, fun c e => ?_⟩ <;> rw [e] at this <;> exact this

/-- C81: however the steps of handler code, of the tasks, of the sockets and of the application are interleaved,
the execution is one on the same sockets in which each handler call happens at once, when the
handler returns: the same bytes arrive, are read and are sent at the same moments, the same operations
take effect in the same order, with the same connections, programs and tables; and every handler
object nobody is using is in the same state. -/
theorem C81_atomic {τ} (code : Code τ) (env : Env (HandlerId → τ)) (hb : Behaves code env) (p : Profile)
    (devices : List Device) (w : World (HandlerId → τ)) (ls : List (TcpLabel (HandlerId → τ))) (s : Whole code)
    (h : Whole.Reach code env p (Whole.init code devices w) ls s) :
    ∃ a, Tcp.Reach env p (Tcp.init devices w) ls a ∧ a.buf = s.buf ∧ a.ended = s.ended ∧ a.got = s.got ∧
      a.cfg.conns = s.fine.cfg.conns ∧ a.cfg.flights = s.fine.cfg.flights ∧ a.cfg.queue = s.fine.cfg.queue ∧
      a.cfg.shared.used = s.fine.cfg.shared.used ∧ a.cfg.shared.available = s.fine.cfg.shared.available ∧
      (∀ o, crashed a.cfg.shared.world o = crashed s.fine.cfg.shared.world o) ∧
      ∀ o, s.fine.free o → a.cfg.shared.world.user o = s.fine.cfg.shared.world.user o := by
  obtain ⟨_, w', hA, hr⟩ := whole_reach hb h
  exact ⟨_, hr, rfl, rfl, rfl, rfl, rfl, rfl, rfl, rfl, fun o => crashed_congr hA.ifp hA.devp o, hA.free⟩

/-- C81: at every moment of every execution, with bytes arriving and replies leaving piece by piece, handler code
running step by step, tasks interleaved in any way and dropped anywhere outside handler code, the
server is the server that serves one operation at a time, in the order in which the operations have
taken effect: every handler object nobody is using, who has panicked, the tables (unless somebody is
changing them), every connection that is between commands.  Every client has received a beginning of
what that server has sent to it, and all of it if its connection is between commands. -/
theorem C81_explained {τ} (code : Code τ) (env : Env (HandlerId → τ)) (hb : Behaves code env) (p : Profile)
    (devices : List Device) (w : World (HandlerId → τ)) (ls : List (TcpLabel (HandlerId → τ))) (s : Whole code)
    (h : Whole.Reach code env p (Whole.init code devices w) ls s) :
    let n := (Net.init devices w).run env p (ls.filterMap tcpEvent)
    (∀ o, s.fine.free o → s.fine.cfg.shared.world.user o = n.sys.shared.world.user o) ∧
    (∀ o, crashed s.fine.cfg.shared.world o = crashed n.sys.shared.world o) ∧
    s.ended = n.ended ∧
    (∀ c, s.fine.cfg.idle c → n.sys.conns c = (s.fine.cfg.conns c).map (fun x =>
      { x with input := ⟨x.input.bytes ++ s.buf c, (s.ended c).getD .unexpectedEof⟩ })) ∧
    ((∀ t f, s.fine.cfg.flights t = some f → f.held .used ≠ some .w) →
      s.fine.cfg.shared.used = n.sys.shared.used) ∧
    ((∀ t f, s.fine.cfg.flights t = some f → f.held .avail ≠ some .w) →
      s.fine.cfg.shared.available = n.sys.shared.available) ∧
    (∀ c, s.got c <+: sentTo n c) ∧
    (∀ c, s.fine.cfg.idle c → s.got c = sentTo n c) := by
  obtain ⟨_, w', hA, hr⟩ := whole_reach hb h
  obtain ⟨h1, h2, h3, h4, h5, h6, h7⟩ := C79_explained env p devices w ls _ hr
  have h1' : w' = ((Net.init devices w).run env p (ls.filterMap tcpEvent)).sys.shared.world := h1
  refine ⟨fun o ho => ?_, fun o => ?_, h2, h3, h4, h5, h6, h7⟩
  · rw [← h1']; exact (hA.free o ho).symm
  · rw [← h1']; exact (crashed_congr hA.ifp hA.devp o).symm

/-- C81: at every moment at which nothing is in progress, the whole state is that of the interactive history, so
whatever is true of all interactive histories of a server that serves one operation at a time is true. -/
theorem C81_transfer {τ} (code : Code τ) (env : Env (HandlerId → τ)) (hb : Behaves code env) (p : Profile)
    (devices : List Device) (w : World (HandlerId → τ)) (P : Net (HandlerId → τ) → Prop)
    (hP : ∀ es, P ((Net.init devices w).run env p es)) (ls : List (TcpLabel (HandlerId → τ))) (s : Whole code)
    (h : Whole.Reach code env p (Whole.init code devices w) ls s) (hq : ∀ t, s.fine.cfg.flights t = none)
    (ha : ∀ a, s.fine.app a = none) :
    P { sys := { shared := s.fine.cfg.shared, conns := fun c => (s.fine.cfg.conns c).map (fun x =>
          { x with input := ⟨x.input.bytes ++ s.buf c, (s.ended c).getD .unexpectedEof⟩ }) }
        ended := s.ended } := by
  obtain ⟨hI, w', hA, hr⟩ := whole_reach hb h
  have hfree : ∀ o, s.fine.free o := fun o => ⟨fun t i ht => by
    obtain ⟨f, _, _, hf, _⟩ := hI.call t i ht
    rw [hq t] at hf; simp at hf, fun a e hx => by rw [ha a] at hx; simp at hx⟩
  have : w' = s.fine.cfg.shared.world := by
    rcases w' with ⟨u, a, b⟩
    have h1 := hA.ifp
    have h2 := hA.devp
    have h3 : u = s.fine.cfg.shared.world.user := funext fun o => hA.free o (hfree o)
    dsimp only at h1 h2
    rw [h1, h2, h3]
  subst this
  exact C79_transfer env p devices w P hP ls _ hr hq

/-- C81 and C76: whatever the interleaving, every client has received a beginning of what the reference
server has sent to it after the operations that have taken effect, and all of it if its connection is
between commands. -/
theorem C81_reference {τ} (code : Code τ) (env : Env (HandlerId → τ)) (hb : Behaves code env) (p : Profile)
    (devices : List Device) (w : World (HandlerId → τ)) (ls : List (TcpLabel (HandlerId → τ))) (s : Whole code)
    (h : Whole.Reach code env p (Whole.init code devices w) ls s) (hd : (devices.map Device.busId).Nodup)
    (ht : TidyLive env p (Live.start devices w) (ls.filterMap tcpEvent)) (c : Nat) :
    let r := ((Live.start devices w).run env p (ls.filterMap tcpEvent)).server
    (∀ o, s.fine.free o → s.fine.cfg.shared.world.user o = r.world.user o) ∧
    (∀ y, r.clients c = some y → s.got c <+: y.sent ∧
      (s.fine.cfg.idle c → s.got c = y.sent ∧ ∃ x, s.fine.cfg.conns c = some x ∧ x.status = y.status)) ∧
    (r.clients c = none → s.got c = [] ∧ s.fine.cfg.conns c = none) := by
  obtain ⟨_, w', hA, hr⟩ := whole_reach hb h
  obtain ⟨h1, h2, h3⟩ := C79_reference env p devices w ls _ hr hd ht c
  have h1' : w' = ((Live.start devices w).run env p (ls.filterMap tcpEvent)).server.world := h1
  refine ⟨fun o ho => ?_, h2, h3⟩
  rw [← h1']; exact (hA.free o ho).symm

/-- C81: a handler object is used by one at a time, and never by a task after it has panicked; a
task that is in handler code holds the used devices for reading, so that nobody has them for writing. -/
theorem C81_exclusive {τ} (code : Code τ) (env : Env (HandlerId → τ)) (hb : Behaves code env) (p : Profile)
    (devices : List Device) (w : World (HandlerId → τ)) (ls : List (TcpLabel (HandlerId → τ))) (s : Whole code)
    (h : Whole.Reach code env p (Whole.init code devices w) ls s) :
    (∀ t u i j, s.fine.inside t = some i → s.fine.inside u = some j → code.obj i.call.target = code.obj j.call.target → t = u) ∧
    (∀ t i a e, s.fine.inside t = some i → s.fine.app a ≠ some (code.obj i.call.target, e)) ∧
    (∀ a b o e e', s.fine.app a = some (o, e) → s.fine.app b = some (o, e') → a = b) ∧
    (∀ t i, s.fine.inside t = some i → crashed s.fine.cfg.shared.world i.call.target = false) ∧
    (∀ t i, s.fine.inside t = some i → (∃ f, s.fine.cfg.flights t = some f ∧ f.held .used = some .r) ∧
      ∀ u g, s.fine.cfg.flights u = some g → g.held .used ≠ some .w) := by
  obtain ⟨hI, w', hA, hr⟩ := whole_reach hb h
  refine ⟨hI.one, hI.mixed, hI.oneApp, hI.alive, fun t i hi => ?_⟩
  obtain ⟨f, _, _, hf, _, _, hhe⟩ := hI.call t i hi
  refine ⟨⟨f, hf, hhe⟩, fun u g hu hw => ?_⟩
  by_cases e : u = t
  · subst e; rw [hu] at hf; cases hf; rw [hhe] at hw; simp at hw
  · have := (tcp_tame hr).excl t u f g (fun e' => e e'.symm) hf hu hw
    rw [hhe] at this; simp at this

/-- C81: if handler code always returns, then no handler call is stuck: in every reachable state every
program that has come to its handler call can still make it (those who hold the mutex only have
to go on), whatever the sockets do. -/
theorem C81_call_progress {τ} (code : Code τ) (env : Env (HandlerId → τ)) (hb : Behaves code env)
    (hret : Returns code) (p : Profile)
    (devices : List Device) (w : World (HandlerId → τ)) (ls : List (TcpLabel (HandlerId → τ))) (s : Whole code)
    (h : Whole.Reach code env p (Whole.init code devices w) ls s) (t : Nat) (f : Flight (HandlerId → τ))
    (g : World (HandlerId → τ) → World (HandlerId → τ)) (k : World (HandlerId → τ) → Task (HandlerId → τ))
    (ht : s.fine.cfg.flights t = some f) (hk : f.code = .commit g k) :
    ∃ s' ls', Whole.Reach code env p s ls' s' ∧ .server (.effect t f.ev) ∈ ls' := by
  obtain ⟨hI, w', hA, hr⟩ := whole_reach hb h
  have hC : Covered env p s.fine.cfg := fun t f g k ht hk => tcp_covered hr t f g k ht hk
  have only : ∀ (s : Whole code) (f' : Fine code) (u : Nat) (ev : Event (HandlerId → τ)),
      Fine.Reach code env p s.fine [.effect u ev] f' →
      Whole.Reach code env p s [.server (.effect u ev)] { s with fine := f' } := by
    intro s f' u ev hr
    exact lift_fine s hr (fun l hm => by rw [List.mem_singleton.mp hm]; trivial)
  -- when the mutex is free
  have go : ∀ s : Whole code, MInv env s.fine → Covered env p s.fine.cfg → s.fine.cfg.flights t = some f →
      s.fine.inside t = none → ∀ c, s.fine.cfg.call p f = some c → s.fine.free (code.obj c.target) →
      ∃ s' ls', Whole.Reach code env p s ls' s' ∧ .server (.effect t f.ev) ∈ ls' := by
    intro s hI hC ht hin c hc hfree
    exact ⟨_, _, only s _ t f.ev (call_reach hb hret hC ht hk hc hin hfree), by simp⟩
  cases hin : s.fine.inside t with
  | some i =>
    obtain ⟨s', f', hf', hr', _⟩ := leave_reach (p := p) hret hI hin
    rw [ht] at hf'; cases hf'
    exact ⟨_, _, only s s' t f.ev hr', by simp⟩
  | none =>
    cases hc : s.fine.cfg.call p f with
    | none =>
      refine ⟨_, _, only s _ t f.ev (Fine.Reach.one (.outer s.fine (.effect t f.ev) _
        (.commit s.fine.cfg t f g k ht hk) ?_ ?_ ?_)), by simp⟩
      · intro u hu
        simp only [prog, Option.some.injEq] at hu
        exact hu ▸ hin
      · intro f' cr e; simp at e
      · intro u ev f' e hf'
        simp only [Label.effect.injEq] at e
        obtain ⟨rfl, _⟩ := e
        rw [ht] at hf'; cases hf'; exact hc
    | some c =>
      by_cases hfree : s.fine.free (code.obj c.target)
      · exact go s hI hC ht hin c hc hfree
      · -- somebody holds the mutex: first let them go on
        by_cases h1 : ∃ u j, s.fine.inside u = some j ∧ code.obj j.call.target = code.obj c.target
        · obtain ⟨u, j, hu, hj⟩ := h1
          obtain ⟨s1, f1, hf1, hr1, hins, happ, hfl, hcall⟩ := leave_reach (p := p) hret hI hu
          have hr1' := only s s1 u f1.ev hr1
          have hne : t ≠ u := fun e => by subst e; rw [hin] at hu; simp at hu
          obtain ⟨hI1, w1, hA1, hcr1⟩ := whole_reach hb (h.trans hr1')
          have hC1 : Covered env p s1.cfg := fun t f g k ht hk => tcp_covered hcr1 t f g k ht hk
          have hfree1 : s1.free (code.obj c.target) := by
            refine ⟨fun v i hv e => ?_, fun a e ha => ?_⟩
            · rw [hins] at hv
              by_cases ev : v = u
              · subst ev; rw [upd_self] at hv; simp at hv
              · rw [upd_ne _ _ ev] at hv
                exact ev (hI.one v u i j hv hu (e.trans hj.symm))
            · rw [happ, ← hj] at ha
              exact hI.mixed u j a e hu ha
          obtain ⟨s2, l2, hr2, hm⟩ := go { s with fine := s1 } hI1 hC1 ((hfl t hne).trans ht)
            (by dsimp only; rw [hins, upd_ne _ _ hne]; exact hin) c ((hcall f).trans hc) hfree1
          exact ⟨s2, _, hr1'.trans hr2, List.mem_append_right _ hm⟩
        · have h2 : ∃ a e, s.fine.app a = some (code.obj c.target, e) := Classical.byContradiction fun hn =>
            hfree ⟨fun u j hu e => h1 ⟨u, j, hu, e⟩, fun a e ha => hn ⟨a, e, ha⟩⟩
          obtain ⟨a, e, ha⟩ := h2
          have st := Whole.Step.handler (env := env) (p := p) s _ _
            (Fine.Step.appLeave (code := code) (env := env) (p := p) s.fine a (code.obj c.target) e ha) trivial
          obtain ⟨hI1, _⟩ := whole_reach hb (h.tail st)
          obtain ⟨s2, l2, hr2, hm⟩ := go { s with fine := { s.fine with app := upd s.fine.app a none } } hI1 hC ht hin c hc
            ⟨fun u j hu e => h1 ⟨u, j, hu, e⟩, fun b e' hb' => by
              dsimp only at hb'
              by_cases eb : b = a
              · subst eb; rw [upd_self] at hb'; simp at hb'
              · rw [upd_ne _ _ eb] at hb'
                exact eb (hI.oneApp b a _ e' e hb' ha)⟩
          exact ⟨s2, _, (Whole.Reach.one st).trans hr2, List.mem_append_right _ hm⟩

/-- C81: if handler code always returns, then as long as some operation is pending (and no `remove_device`
call is waiting for the used devices, see `C34_fails`), some task can get further, or some client can
be handed the next byte of a reply; those who are using handler objects only have to go on. -/
theorem C81_progress {τ} (code : Code τ) (env : Env (HandlerId → τ)) (hb : Behaves code env)
    (hret : Returns code) (p : Profile)
    (devices : List Device) (w : World (HandlerId → τ)) (ls : List (TcpLabel (HandlerId → τ))) (s : Whole code)
    (h : Whole.Reach code env p (Whole.init code devices w) ls s)
    (hfl : ∃ t f, s.fine.cfg.flights t = some f)
    (hno : ∀ t f i m k, s.fine.cfg.flights t = some f → f.ev = .removeDevice i → f.code ≠ .lock .used m k) :
    ∃ s' ls', Whole.Reach code env p s ls' s' ∧
      ((∃ lb, .server lb ∈ ls' ∧ Advances lb) ∨ ∃ c b, .piece c [b] ∈ ls') := by
  obtain ⟨hI, w', hA, hr⟩ := whole_reach hb h
  have back : ∀ lb a, Tcp.Step env p (s.tcp.withWorld w') lb a → (∀ l, lb = .server l → ¬ ofHandlers (some l)) →
      (∀ l t, lb = .server l → prog l = some t → s.fine.inside t = none) →
      ∃ s', Whole.Reach code env p s [lb] s' := by
    intro lb a st hl ho
    have := (tcp_step_world st hl s.fine.cfg.shared.world).2
    exact ⟨_, Whole.Reach.one (.socket s lb _ this hl ho)⟩
  rcases C79_progress env p devices w ls _ hr hfl hno with ⟨lb, a, st, hadv⟩ | ⟨c, b, a, st⟩
  · by_cases heff : ofHandlers (some lb)
    · cases lb with
      | effect t ev =>
        cases st with
        | other _ _ st =>
          cases st with
          | commit t f g k ht hk =>
            obtain ⟨s', ls', hr', hm⟩ := C81_call_progress code env hb hret p devices w ls s h t f g k ht hk
            exact ⟨s', ls', hr', .inl ⟨_, hm, trivial⟩⟩
      | start t ev => exact absurd heff id
      | inner t => exact absurd heff id
      | ended t => exact absurd heff id
      | dropped t o => exact absurd heff id
      | outside ev => exact absurd hadv id
    · by_cases hins : ∃ t i, prog lb = some t ∧ s.fine.inside t = some i
      · obtain ⟨t, i, hp, hi⟩ := hins
        obtain ⟨f, g, k, hf, hk, _⟩ := hI.call t i hi
        obtain ⟨s', ls', hr', hm⟩ := C81_call_progress code env hb hret p devices w ls s h t f g k hf hk
        exact ⟨s', ls', hr', .inl ⟨_, hm, trivial⟩⟩
      · obtain ⟨s', hr'⟩ := back (.server lb) a st (fun l e => by cases e; exact heff) (fun l t e hp => by
          cases e
          cases hi : s.fine.inside t with
          | none => rfl
          | some i => exact absurd ⟨t, i, hp, hi⟩ hins)
        exact ⟨s', _, hr', .inl ⟨lb, by simp, hadv⟩⟩
  · obtain ⟨s', hr'⟩ := back (.piece c [b]) a st (fun l e => by simp at e) (fun l t e => by simp at e)
    exact ⟨s', _, hr', .inr ⟨c, b, by simp⟩⟩

/-- C81, the other direction: every interactive history of the server that serves one operation at a time (in
which the application acts on one handler object at a time) happens, with handler code that runs step by
step on sockets, and with nothing in progress at its end; events that have no effect (an iteration that
waits for bytes) are left out. -/
theorem C81_realised {τ} (code : Code τ) (env : Env (HandlerId → τ)) (hb : Behaves code env)
    (hret : Returns code) (p : Profile) (devices : List Device) (w : World (HandlerId → τ))
    (es : List (NetEvent (HandlerId → τ))) 
    (hu : ∀ f crash, .user f crash ∈ es → ∃ o v, f = (fun u => upd u o v) ∧ ∀ h, crash = some h → code.obj h = o) :
    let n := (Net.init devices w).run env p es
    ∃ ls, ∃ s : Whole code, Whole.Reach code env p (Whole.init code devices w) ls s ∧
      (∀ t, s.fine.cfg.flights t = none) ∧ (∀ t, s.fine.inside t = none) ∧ (∀ a, s.fine.app a = none) ∧
      (ls.filterMap tcpEvent).Sublist es ∧ s.fine.cfg.shared = n.sys.shared ∧ s.ended = n.ended ∧
      (∀ c, s.got c = sentTo n c) ∧
      ∀ c, (s.fine.cfg.conns c).map (fun x =>
        { x with input := ⟨x.input.bytes ++ s.buf c, (s.ended c).getD .unexpectedEof⟩ }) = n.sys.conns c := by
  intro n
  obtain ⟨ls, a, hr, hfl, hsub, hsh, hend, hgot, hcn⟩ := C79_realised env p devices w es
  have hu' : ∀ f crash, .server (.outside (.user f crash)) ∈ ls →
      ∃ o v, f = (fun u => upd u o v) ∧ ∀ h, crash = some h → code.obj h = o := by
    intro f crash hf
    exact hu f crash (hsub.subset (List.mem_filterMap.mpr ⟨_, hf, rfl⟩))
  obtain ⟨s, hs, rfl, hin, hap⟩ := lift_all hb hret hr hu'
  exact ⟨ls, s, hs, hfl, hin, hap, hsub, hsh, hend, hgot, hcn⟩

/-- C81: a handler call that does not return: as long as it lasts, whatever the clients and the other tasks do,
no program gets the used devices for writing (which importing a device and giving one back need),
and the used devices stay as they are. -/
theorem C81_stalled {τ} (code : Code τ) (env : Env (HandlerId → τ)) (hb : Behaves code env) (p : Profile)
    (devices : List Device) (w : World (HandlerId → τ)) (ls ls' : List (TcpLabel (HandlerId → τ)))
    (s s' : Whole code) (h : Whole.Reach code env p (Whole.init code devices w) ls s) (t : Nat) (i : Inside code)
    (hi : s.fine.inside t = some i)
    (hn : ∀ l v, Goes code (code.start i.call) i.entry l v → code.result l = none)
    (h' : Whole.Reach code env p s ls' s') :
    (∃ j, s'.fine.inside t = some j ∧ j.call = i.call) ∧
    (∀ u f, s'.fine.cfg.flights u = some f → f.held .used ≠ some .w) ∧
    s'.fine.cfg.shared.used = s.fine.cfg.shared.used := by
  have now : ∀ ls s j, Whole.Reach code env p (Whole.init code devices w) ls s → s.fine.inside t = some j →
      ∀ u f, s.fine.cfg.flights u = some f → f.held .used ≠ some .w := fun ls s j h hj =>
    ((C81_exclusive code env hb p devices w ls s h).2.2.2.2 t j hj).2
  have main : (∃ j, s'.fine.inside t = some j ∧ j.call = i.call ∧ j.entry = i.entry) ∧
      s'.fine.cfg.shared.used = s.fine.cfg.shared.used := by
    induction h' with
    | refl => exact ⟨⟨i, hi, rfl, rfl⟩, rfl⟩
    | @tail l1 s1 lb s2 h1 st ih =>
      obtain ⟨⟨j, hj, hjc, hje⟩, hused⟩ := ih
      have hreach := h.trans h1
      obtain ⟨hI, w', hA, hr⟩ := whole_reach hb hreach
      have plain : ∀ lb cfg', Cfg.Step env p s1.fine.cfg lb cfg' → cfg'.shared.used = s.fine.cfg.shared.used := by
        intro lb cfg' st
        rw [← hused]
        cases st <;> try rfl
        case putUsed t' f' v k ht' hk =>
          exact absurd ((tcp_tame hr).put t' f' v k ht' hk) (now _ _ j hreach hj t' f' ht')
      cases st with
      | socket lb a st hl ho =>
        refine ⟨⟨j, hj, hjc, hje⟩, ?_⟩
        cases st with
        | other lb cfg' st => exact plain lb cfg' st
        | connect | arrive | hangup | take | iterate | iterateEnd | piece | sent => exact hused
      | handler lb f st hl =>
        cases st with
        | outer lb cfg' st ho hu he => exact ⟨⟨j, hj, hjc, hje⟩, plain lb cfg' st⟩
        | enter t' f g k c cont ht hk hc hr hi' hf hp =>
          have hne : t ≠ t' := fun e => by subst e; rw [hj] at hi'; simp at hi'
          exact ⟨⟨j, (upd_ne _ _ hne).trans hj, hjc, hje⟩, hused⟩
        | poisoned t' f g k c cont ht hk hc hr hi' hp => exact ⟨⟨j, hj, hjc, hje⟩, hused⟩
        | work t' i' ht' hr' =>
          by_cases e : t = t'
          · subst e
            rw [hj] at ht'; cases ht'
            exact ⟨⟨_, upd_self _ _ _, hjc, hje⟩, hused⟩
          · exact ⟨⟨j, (upd_ne _ _ e).trans hj, hjc, hje⟩, hused⟩
        | leave t' f i' r ht' hf hr' =>
          by_cases e : t = t'
          · subst e
            rw [hj] at ht'; cases ht'
            have := hI.goes t j hj
            rw [hjc, hje] at this
            rw [hn _ _ this] at hr'; simp at hr'
          · exact ⟨⟨j, (upd_ne _ _ e).trans hj, hjc, hje⟩, hused⟩
        | appEnter a o ha hf => exact ⟨⟨j, hj, hjc, hje⟩, hused⟩
        | appWork a o e v ha => exact ⟨⟨j, hj, hjc, hje⟩, hused⟩
        | appLeave a o e ha => exact ⟨⟨j, hj, hjc, hje⟩, hused⟩
        | appCrash a o e ha => exact ⟨⟨j, hj, hjc, hje⟩, hused⟩
        | appPanic o hf => exact ⟨⟨j, hj, hjc, hje⟩, hused⟩
  obtain ⟨⟨j, hj, hjc, _⟩, hu⟩ := main
  exact ⟨⟨j, hj, hjc⟩, now _ _ j (h.trans h') hj, hu⟩

/-- The steps of a connection's task up to handler code. -/
theorem enter_labels {τ} (code : Code τ) (env : Env (HandlerId → τ)) (hb : Behaves code env) (p : Profile)
    (devices : List Device) (w : World (HandlerId → τ)) (ls : List (TcpLabel (HandlerId → τ))) (s : Whole code)
    (h : Whole.Reach code env p (Whole.init code devices w) ls s) (t c : Nat) (x : Conn) (k : HCall)
    (ht : s.fine.cfg.flights t = none) (hx : s.fine.cfg.conns c = some x) (hr : x.status = .running)
    (hi : s.fine.cfg.idle c) (hq : s.fine.cfg.queue .used = [])
    (hnw : ∀ u g, s.fine.cfg.flights u = some g → g.held .used ≠ some .w)
    (hk : x.call p s.fine.cfg.shared.used = some k) (hf : s.fine.free (code.obj k.target))
    (hp : crashed s.fine.cfg.shared.world k.target = false) :
    ∃ ls' f i, Whole.Reach code env p s ls' { s with fine :=
        { s.fine with cfg := s.fine.cfg.put t (some f), inside := upd s.fine.inside t (some i) } } ∧
      i.call = k ∧ f.owner = some c ∧ f.held .used = some .r ∧
      ls' = [.server (.start t (.iterate c .full)), .server (.inner t), .server (.inner t), .server (.inner t)] := by
  obtain ⟨hI, w', hA, hr'⟩ := whole_reach hb h
  have hin : s.fine.inside t = none := by
    cases hin : s.fine.inside t with
    | none => rfl
    | some i =>
      obtain ⟨f, _, _, hf', _⟩ := hI.call t i hin
      rw [ht] at hf'; simp at hf'
  obtain ⟨f, g, q, hcode, hown, hheld, hev, r1⟩ := tcp_arrive env p s.tcp t c .full x k ht hx hr hi hq hnw hk
  have r2 := lift_tcp s r1 (by
    intro l hm
    simp only [List.mem_cons, TcpLabel.server.injEq, List.not_mem_nil, or_false] at hm
    rcases hm with rfl | rfl | rfl | rfl <;>
      exact ⟨id, fun u hu => by simp only [prog, Option.some.injEq] at hu; exact hu ▸ hin⟩)
  obtain ⟨_, w2, _, hr2⟩ := whole_reach hb (h.trans r2)
  have call1 : (s.fine.cfg.put t (some f)).call p f = some k := by
    simp only [Cfg.call, hown, Option.bind_some, Cfg.put, hx, hk]
  have hcov := tcp_covered hr2 t f g q (put_same s.fine.cfg t (some f)) hcode
  have call2 : ((s.fine.cfg.put t (some f)).withWorld w2).call p f = some k := call1
  have hcov : match ((s.fine.cfg.put t (some f)).withWorld w2).call p f with
    | none => Passive g q
    | some c => f.held .used = some .r ∧ ∃ cont, Runs env g q c cont := hcov
  rw [call2] at hcov
  obtain ⟨_, cont, hrun⟩ := hcov
  have e1 := Fine.Step.enter (code := code) (env := env) (p := p) { s.fine with cfg := s.fine.cfg.put t (some f) } t f g q k
    cont (put_same _ _ _) hcode call1 hrun hin hf hp
  refine ⟨_, f, _, r2.trans (Whole.Reach.one (.handler _ none _ e1 trivial)), rfl, hown, hheld, ?_⟩
  rfl

/-- C81: handler code runs next to everything else: whenever a connection has received a submit for a handler that
nobody is using (and that has not panicked), and nobody has or waits for the used devices for writing, then
its handler can be running with everything else left where it is: other handlers in the middle of their
code, replies half sent, bytes that have arrived and not been read. -/
theorem C81_enter {τ} (code : Code τ) (env : Env (HandlerId → τ)) (hb : Behaves code env) (p : Profile)
    (devices : List Device) (w : World (HandlerId → τ)) (ls : List (TcpLabel (HandlerId → τ))) (s : Whole code)
    (h : Whole.Reach code env p (Whole.init code devices w) ls s) (t c : Nat) (x : Conn) (k : HCall)
    (ht : s.fine.cfg.flights t = none) (hx : s.fine.cfg.conns c = some x) (hr : x.status = .running)
    (hi : s.fine.cfg.idle c) (hq : s.fine.cfg.queue .used = [])
    (hnw : ∀ u g, s.fine.cfg.flights u = some g → g.held .used ≠ some .w)
    (hk : x.call p s.fine.cfg.shared.used = some k) (hf : s.fine.free (code.obj k.target))
    (hp : crashed s.fine.cfg.shared.world k.target = false) :
    ∃ ls' f i, Whole.Reach code env p s ls' { s with fine :=
        { s.fine with cfg := s.fine.cfg.put t (some f), inside := upd s.fine.inside t (some i) } } ∧
      i.call = k ∧ f.owner = some c ∧ f.held .used = some .r ∧ ls'.filterMap tcpEvent = [] := by
  obtain ⟨_, f, i, hr, h1, h2, h3, rfl⟩ := enter_labels code env hb p devices w ls s h t c x k ht hx hr hi hq hnw hk hf hp
  exact ⟨_, f, i, hr, h1, h2, h3, rfl⟩

/-! ### A concrete case

Two clients have imported a device each and have sent a submit; a third asks for the device list. -/

namespace Samples

def threeClients : List (NetEvent (HandlerId → Nat)) :=
  [.connect 0, .arrive 0 (wireCmd (.reqImport 0 busA)), .iterate 0 .full,
   .connect 1, .arrive 1 (wireCmd (.reqImport 0 busB)), .iterate 1 .full,
   .arrive 0 (wireCmd (.submit hdrIn 0 64 0 0 0 [0, 0, 0, 0, 0, 0, 0, 0] [] [])),
   .arrive 1 (wireCmd (.submit ⟨1, 1, 65538, 1, 0⟩ 0 18 0 0 0 [0xC0, 6, 0, 1, 0, 0, 18, 0] [] [])),
   .connect 2, .arrive 2 (wireCmd (.reqDevlist 0))]

end Samples

/-- Two handlers are in the middle of their code, for two clients, while a third client has received three
bytes of its reply.  All of C81's conclusions speak of this state. -/
theorem busy : ∃ ls s i j f, Whole.Reach adder adderEnv dev (Whole.init adder [devA, devB] adderWorld) ls s ∧
    s.fine.inside 1 = some i ∧ i.call.target = .iface 0 ∧ s.fine.inside 2 = some j ∧ j.call.target = .dev 4 ∧
    s.fine.cfg.flights 0 = some f ∧ f.owner = some 2 ∧ (∃ k, f.code = .send k) ∧ s.got 2 = [1, 17, 0] := by
  obtain ⟨ls, s, hr, hfl, hsub, hsh, hend, hgot, hcn⟩ := C79_realised adderEnv dev [devA, devB] adderWorld threeClients
  have hq : ∀ l, s.cfg.queue l = [] := tcp_queue hr hfl
  generalize hn : (Net.init [devA, devB] adderWorld).run adderEnv dev threeClients = n at *
  have f0 : (n.sys.conns 0).map (fun x => (x.status, (x.call dev n.sys.shared.used).map HCall.target))
      = some (.running, some (.iface 0)) := by subst hn; decide +kernel
  have f1 : (n.sys.conns 1).map (fun x => (x.status, (x.call dev n.sys.shared.used).map HCall.target))
      = some (.running, some (.dev 4)) := by subst hn; decide +kernel
  have f2 : (n.sys.conns 2).map (fun x => (x.status, x.input.bytes, x.output))
      = some (.running, [1, 17, 128, 5, 0, 0, 0, 0], []) := by subst hn; decide +kernel
  have fa : n.sys.shared.available.length = 0 := by subst hn; decide +kernel
  have fc : crashed n.sys.shared.world (.iface 0) = false ∧ crashed n.sys.shared.world (.dev 4) = false := by
    subst hn; decide +kernel
  have fg : sentTo n 2 = [] := by subst hn; decide +kernel
  rw [← hcn 0] at f0
  rw [← hcn 1] at f1
  rw [← hcn 2] at f2
  simp only [Option.map_map, Option.map_eq_some_iff, Function.comp_apply, Prod.mk.injEq] at f0 f1 f2
  obtain ⟨x0, h0, r0, k0, c0, t0⟩ := f0
  obtain ⟨x1, h1, r1, k1, c1, t1⟩ := f1
  obtain ⟨x2, h2, r2, b2, o2⟩ := f2
  rw [← hsh] at c0 c1 fa fc
  rw [← hgot 2] at fg
  obtain ⟨⟨⟨avail, used, world⟩, conns, flights, queue⟩, buf, ended, got⟩ := s
  have e1 : flights = fun _ => none := funext hfl
  have e2 : queue = fun _ => [] := funext hq
  subst e1 e2
  have e3 : avail = [] := List.eq_nil_of_length_eq_zero fa
  subst e3
  dsimp only at h0 h1 h2 r0 r1 r2 b2 o2 c0 c1 fc fg
  clear hcn hgot hsh hend hfl hq hn fa
  have e0 : Conn.call dev { x0 with input := ⟨x0.input.bytes ++ buf 0, x0.input.fin⟩ } used = some k0 := by
    rw [← c0]
    exact (call_fin dev { x0 with input := ⟨x0.input.bytes ++ buf 0, x0.input.fin⟩ } _ _).symm
  have e1 : Conn.call dev { x1 with input := ⟨x1.input.bytes ++ buf 1, x1.input.fin⟩ } used = some k1 := by
    rw [← c1]
    exact (call_fin dev { x1 with input := ⟨x1.input.bytes ++ buf 1, x1.input.fin⟩ } _ _).symm
  -- the tasks take what has arrived
  have idle : ∀ (sh : Shared (HandlerId → Nat)) cs c, (⟨sh, cs, fun _ => none, fun _ => []⟩ : Cfg _).idle c := by
    intro sh cs c t f h; simp at h
  have p1 := hr.trans (take_all adderEnv dev _ 0 x0 h0 (idle _ _ _))
  have p2 := p1.trans (take_all adderEnv dev _ 1 x1 (by simpa [setConn] using h1) (idle _ _ _))
  have p3 := p2.trans (take_all adderEnv dev _ 2 x2 (by simpa [setConn] using h2) (idle _ _ _))
  have b0 : (upd (upd buf 0 []) 1 []) 2 = buf 2 := by simp [upd]
  have b1 : (upd buf 0 []) 1 = buf 1 := by simp [upd]
  dsimp only at p3
  rw [b0, b1, b2] at p3
  generalize hb : upd (upd (upd buf 0 []) 1 []) 2 [] = buf' at p3
  generalize hy0 : ({ x0 with input := ⟨x0.input.bytes ++ buf 0, x0.input.fin⟩ } : Conn) = y0 at e0 p3
  generalize hy1 : ({ x1 with input := ⟨x1.input.bytes ++ buf 1, x1.input.fin⟩ } : Conn) = y1 at e1 p3
  generalize hy2 : ({ x2 with input := ⟨[1, 17, 128, 5, 0, 0, 0, 0], x2.input.fin⟩ } : Conn) = y2 at p3
  generalize hcs : setConn (setConn (setConn conns 0 y0) 1 y1) 2 y2 = cs at p3
  have g0 : cs 0 = some y0 := by rw [← hcs]; simp [setConn]
  have g1 : cs 1 = some y1 := by rw [← hcs]; simp [setConn]
  have g2 : cs 2 = some y2 := by rw [← hcs]; simp [setConn]
  -- the third client's task gets to sending its reply
  have p4 := p3.tail (.iterate _ 0 2 .full y2 rfl g2 (by rw [← hy2]; exact r2) (idle _ _ _) (by
    subst hy2
    show (readCommand dev : Rd Arrived Cmd) ⟨[1, 17, 128, 5, 0, 0, 0, 0]⟩ ≠ _
    rw [show (readCommand dev : Rd Arrived Cmd) ⟨[1, 17, 128, 5, 0, 0, 0, 0]⟩ = .ok (.reqDevlist 0, ⟨[]⟩) from rfl]
    simp))
  have hcode : iterTask adderEnv dev y2 .full = devlistTask dev y2 ⟨[], x2.input.fin⟩ (.reqDevlist 0) .full := by
    subst hy2; rfl
  rw [hcode] at p4
  obtain ⟨l5, q5, hl5, _⟩ := lone_devlist adderEnv dev ⟨[], used, world⟩ cs 0 (.iterate 2 .full) (some 2) y2
    ⟨[], x2.input.fin⟩ (.reqDevlist 0) .full buf' ended got
  have p5 := Tcp.Reach.trans p4 q5
  have ho : ([1, 17, 0] : Bytes) <+: (y2.finish dev ⟨[], x2.input.fin⟩ (.reqDevlist 0) .full y2.current
      (.ok (opRepDevlist []))).output := by
    subst hy2
    have : (Conn.finish dev { x2 with input := ⟨[1, 17, 128, 5, 0, 0, 0, 0], x2.input.fin⟩ } ⟨[], x2.input.fin⟩
      (.reqDevlist 0) .full x2.current (.ok (opRepDevlist []))).output = x2.output ++ [1, 17, 0, 5, 0, 0, 0, 0, 0, 0, 0, 0] := rfl
    rw [this, o2]
    exact ⟨[5, 0, 0, 0, 0, 0, 0, 0, 0], rfl⟩
  have p6 := p5.tail (.piece _ 0 2 _ _ _ [1, 17, 0] (Cfg.lone_at _ _ _ _) rfl rfl rfl (by
    dsimp only
    rw [fg]
    exact ho))
  obtain ⟨S, q7, hS, hin, hap⟩ := lift_all adder_behaves adder_returns p6 (fun f cr hf => by
    have hm := List.mem_filterMap.mpr ⟨_, hf, (rfl : tcpEvent (.server (.outside (.user f cr))) = some (.user f cr))⟩
    simp only [List.filterMap_append, List.mem_append, hl5] at hm
    simp only [tcpEvent, Label.event, live, List.filterMap_cons, List.filterMap_nil, List.mem_cons, List.not_mem_nil,
      Option.map_none, or_false, reduceCtorEq] at hm
    have := hsub.subset hm
    simp [threeClients] at this)
  obtain ⟨⟨cfg, inside, app⟩, sbuf, sended, sgot⟩ := S
  simp only [Whole.tcp, Tcp.mk.injEq] at hS
  obtain ⟨rfl, rfl, rfl, rfl⟩ := hS
  have free : ∀ (g : Cfg (HandlerId → Nat)) o, (⟨g, inside, app⟩ : Fine adder).free o :=
    fun _ o => ⟨fun t i h => by have := hin t; dsimp only at this h; rw [this] at h; simp at h,
      fun a e h => by have := hap a; dsimp only at this h; rw [this] at h; simp at h⟩
  -- the other two clients' handlers are called
  obtain ⟨l8, f8, i, q8, hi8, ho8, hh8, _⟩ := C81_enter adder adderEnv adder_behaves dev [devA, devB] adderWorld _ _ q7 1 0 y0 k0
    rfl g0 (by rw [← hy0]; exact r0)
    (fun t f h => by
      by_cases e : t = 0
      · subst e
        dsimp only at h
        rw [Cfg.lone_at] at h; cases h; simp
      · simp [Cfg.lone, upd, e] at h) rfl
    (fun t f h => by
      by_cases e : t = 0
      · subst e
        dsimp only at h
        rw [Cfg.lone_at] at h; cases h; simp [upd]
      · simp [Cfg.lone, upd, e] at h) e0 (free _ _) (by rw [t0]; exact fc.1)
  have q9 := q7.trans q8
  obtain ⟨l10, f10, j, q10, hi10, ho10, hh10, _⟩ := C81_enter adder adderEnv adder_behaves dev [devA, devB] adderWorld _ _ q9 2 1 y1 k1
    rfl g1 (by rw [← hy1]; exact r1)
    (fun t f h => by
      by_cases e : t = 0
      · subst e
        have : some _ = some f := h
        cases this; simp
      · by_cases e' : t = 1
        · subst e'
          have : some _ = some f := h
          cases this; rw [ho8]; simp
        · simp [Cfg.lone, Cfg.put, upd, e, e'] at h) rfl
    (fun t f h => by
      by_cases e : t = 0
      · subst e
        have : some _ = some f := h
        cases this; simp [upd]
      · by_cases e' : t = 1
        · subst e'
          have : some _ = some f := h
          cases this; rw [hh8]; simp
        · simp [Cfg.lone, Cfg.put, upd, e, e'] at h) e1
    ⟨fun t i' h => by
      by_cases e' : t = 1
      · subst e'
        have : some i = some i' := h
        cases this; rw [hi8, t0, t1]; simp [adder]
      · have := hin t
        dsimp only at this h
        rw [upd_ne _ _ e', this] at h; simp at h,
      (free (Cfg.init [] adderWorld) _).2⟩ (by rw [t1]; exact fc.2)
  refine ⟨_, _, i, j, _, q9.trans q10, rfl, by rw [hi8, t0], rfl, by rw [hi10, t1], rfl, rfl, ⟨_, rfl⟩, ?_⟩
  show upd got 2 (got 2 ++ [1, 17, 0]) 2 = _
  rw [upd_self, fg]
  rfl

namespace Samples

/-- Handler code that never returns. -/
def sleeper : Code Nat where
  Local := Unit
  start _ := ()
  step l v := (l, v)
  result _ := none

def oneClient : List (NetEvent (HandlerId → Nat)) :=
  [.connect 0, .arrive 0 (wireCmd (.reqImport 0 busA)), .iterate 0 .full,
   .arrive 0 (wireCmd (.submit hdrIn 0 64 0 0 0 [0, 0, 0, 0, 0, 0, 0, 0] [] []))]

end Samples

/-- A connection that is not made is not there. -/
theorem net_unknown {σ} (env : Env σ) (p : Profile) (c : Nat) : ∀ (es : List (NetEvent σ)), .connect c ∉ es →
    ∀ n : Net σ, n.sys.conns c = none → (n.run env p es).sys.conns c = none
  | [], _, _, h => h
  | e :: es, he, n, h => by
    refine net_unknown env p c es (fun hm => he (by simp [hm])) (n.step env p e) ?_
    have ne : ∀ {c' x}, n.sys.conns c' = some x → c ≠ c' := fun hx e => by subst e; rw [h] at hx; cases hx
    have upd' : ∀ {c' x y}, n.sys.conns c' = some x → setConn n.sys.conns c' y c = none := fun hx => by
      simp only [setConn, if_neg (ne hx)]; exact h
    cases e with
    | connect c' =>
      have hne : c ≠ c' := fun e => he (by simp [e])
      simp only [Net.step, Sys.step]
      split
      · exact h
      · simp only [setConn, if_neg hne]; exact h
    | arrive c' bs =>
      simp only [Net.step]
      split
      · next hx _ => exact upd' hx
      · exact h
    | hangup c' e =>
      simp only [Net.step]
      split
      · next hx _ => exact upd' hx
      · exact h
    | iterate c' w =>
      simp only [Net.step, Sys.step]
      split
      · split
        · next hx =>
          split
          · exact upd' hx
          · exact h
        · exact h
      · exact h
    | cancel c' =>
      simp only [Net.step, Sys.step]
      split
      · next hx =>
        split
        · exact upd' hx
        · exact h
      · exact h
    | addDevice d => exact h
    | removeDevice id => exact h
    | user f cr => exact h

/-- A client has imported a device and is in the middle of a handler call that never returns: from here on
nobody imports a device (`C81_stalled`). -/
theorem asleep : ∃ ls s i, Whole.Reach sleeper adderEnv dev (Whole.init sleeper [devA, devB] adderWorld) ls s ∧
    s.fine.inside 0 = some i ∧ i.call.target = .iface 0 ∧
    (∃ f x, s.fine.cfg.flights 0 = some f ∧ f.owner = some 0 ∧ s.fine.cfg.conns 0 = some x) ∧
    (∀ l v, Goes sleeper (sleeper.start i.call) i.entry l v → sleeper.result l = none) ∧
    (∀ ls' s', Whole.Reach sleeper adderEnv dev s ls' s' → s'.fine.cfg.shared.used.length = 1) ∧
    (∀ t, t ≠ 0 → s.fine.cfg.flights t = none) ∧ s.fine.cfg.queue .used = [] ∧
    ∀ c, c ≠ 0 → s.fine.cfg.conns c = none := by
  have hb : Behaves sleeper adderEnv := fun c u l v r h hr => by simp [sleeper] at hr
  obtain ⟨ls, s, hr, hfl, hsub, hsh, hend, hgot, hcn⟩ := C79_realised adderEnv dev [devA, devB] adderWorld oneClient
  have hq : ∀ l, s.cfg.queue l = [] := tcp_queue hr hfl
  generalize hn : (Net.init [devA, devB] adderWorld).run adderEnv dev oneClient = n at *
  have f0 : (n.sys.conns 0).map (fun x => (x.status, (x.call dev n.sys.shared.used).map HCall.target))
      = some (.running, some (.iface 0)) := by subst hn; decide +kernel
  have fu : n.sys.shared.used.length = 1 := by subst hn; decide +kernel
  have fc : crashed n.sys.shared.world (.iface 0) = false := by subst hn; decide +kernel
  have fw : n.sys.shared.world.user = fun _ => 0 := by subst hn; rfl
  have hnc : ∀ c, c ≠ 0 → s.cfg.conns c = none := fun c hc => by
    have : n.sys.conns c = none := by
      subst hn
      exact net_unknown _ _ c oneClient (by simp [oneClient, hc]) _ rfl
    rw [← hcn c, Option.map_eq_none_iff] at this
    exact this
  rw [← hcn 0] at f0
  simp only [Option.map_map, Option.map_eq_some_iff, Function.comp_apply, Prod.mk.injEq] at f0
  obtain ⟨x0, h0, r0, k0, c0, t0⟩ := f0
  rw [← hsh] at c0 fu fc fw
  -- what has arrived is read
  obtain ⟨⟨shared, conns, flights, queue⟩, buf, ended, got⟩ := s
  dsimp only at *
  have q1 := hr.tail (.take _ 0 x0 (buf 0) [] h0 (fun t f h => by dsimp only at h; rw [hfl t] at h; simp at h) (by simp))
  have nouser : ∀ f cr, .server (.outside (.user f cr)) ∉ ls ++ [.take 0] := fun f cr hf => by
    have hm := List.mem_filterMap.mpr ⟨_, hf, (rfl : tcpEvent (.server (.outside (.user f cr))) = some (.user f cr))⟩
    simp only [List.filterMap_append, List.mem_append] at hm
    simp only [tcpEvent, List.filterMap_cons, List.filterMap_nil, List.not_mem_nil, or_false] at hm
    have := hsub.subset hm
    simp [oneClient, live] at this
  obtain ⟨S, q2, hS, hin, hap⟩ := lift_all' hb q1 (.inr ⟨id, fun c u => by
      cases c <;> simp [HCall.answer, HCall.target, adderEnv, upd, sleeper], fun c u o => by
      cases c with
      | iface h =>
        by_cases e : o = .iface h <;> simp [HCall.answer, adderEnv, upd, e]
      | dev h => by_cases e : o = .dev h <;> simp [HCall.answer, adderEnv, upd, e], nouser, fun o => by
      show shared.world.user o ≤ 0
      rw [fw]; exact Nat.le_refl _⟩) (fun f cr hf => absurd hf (nouser f cr))
  obtain ⟨⟨cfg, inside, app⟩, sbuf, sended, sgot⟩ := S
  simp only [Whole.tcp, Tcp.mk.injEq] at hS
  obtain ⟨rfl, rfl, rfl, rfl⟩ := hS
  have call0 : Conn.call dev { x0 with input := ⟨x0.input.bytes ++ buf 0, x0.input.fin⟩ } shared.used = some k0 := by
    rw [← c0]
    exact (call_fin dev { x0 with input := ⟨x0.input.bytes ++ buf 0, x0.input.fin⟩ } _ _).symm
  obtain ⟨l3, f3, i, q3, hi3, ho3, hh3, _⟩ := C81_enter sleeper adderEnv hb dev [devA, devB] adderWorld _ _ q2 0 0
    { x0 with input := ⟨x0.input.bytes ++ buf 0, x0.input.fin⟩ } k0 (hfl 0) (by simp [setConn]) r0 (fun t f h => by dsimp only at h; rw [hfl t] at h; simp at h) (hq _)
    (fun t f h => by dsimp only at h; rw [hfl t] at h; simp at h) call0
    ⟨fun t i h => by have := hin t; dsimp only at this h; rw [this] at h; simp at h,
      fun a e h => by have := hap a; dsimp only at this h; rw [this] at h; simp at h⟩ (by rw [t0]; exact fc)
  refine ⟨_, _, i, q2.trans q3, by simp [upd], by rw [hi3, t0], ⟨f3, _, put_same _ _ _, ho3, rfl⟩, fun _ _ _ => rfl, fun ls' s' h' => ?_,
    fun t ht => (put_ne _ _ ht).trans (hfl t), hq .used, fun c hc => by simpa [Cfg.put, setConn, hc] using hnc c hc⟩
  have := (C81_stalled sleeper adderEnv hb dev [devA, devB] adderWorld _ _ _ _ (q2.trans q3) 0 i (by simp [upd])
    (fun _ _ _ => rfl) h').2.2
  rw [this]
  exact fu

end Usbip
