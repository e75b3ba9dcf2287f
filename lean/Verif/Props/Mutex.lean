import Verif.Lemmas.Mutex
import Verif.Props.Concurrent
/-!
# Handler code that runs step by step, behind the handlers' mutexes (C75)
-/

namespace Usbip
open Spec Samples

/-- C75: what the programs of the lock-level model do at their `commit`, in every reachable state:
exactly the handler call of the connection's command, with the used devices locked for reading; or,
when there is none, nothing that involves a handler. -/
theorem C75_calls {σ} (env : Env σ) (p : Profile) (devices : List Device) (w : World σ)
    (ls : List (Label σ)) (s : Cfg σ) (h : Cfg.Reach env p (Cfg.init devices w) ls s)
    (t : Nat) (f : Flight σ) (g : World σ → World σ) (k : World σ → Task σ) (ht : s.flights t = some f)
    (hk : f.code = .commit g k) :
    (s.call p f = none → Passive g k) ∧
    ∀ c, s.call p f = some c → f.held .used = some .r ∧ ∃ cont, Runs env g k c cont := by
  have := covered h t f g k ht hk
  refine ⟨fun e => ?_, fun c e => ?_⟩ <;> rw [e] at this <;> exact this

/-- C75: whatever the interleaving of the steps of handler code with those of other handlers, of
other connections and of the application, the execution is one in which each handler call happens
at once, in the order in which the calls end: the same effects in the same order, the same
connections, programs and tables; and every handler object nobody is using is in the same state. -/
theorem C75_atomic {τ} (code : Code τ) (env : Env (HandlerId → τ)) (hb : Behaves code env) (p : Profile)
    (devices : List Device) (w : World (HandlerId → τ)) (ls : List (Label (HandlerId → τ))) (s : Fine code)
    (h : Fine.Reach code env p (Fine.init code devices w) ls s) :
    ∃ a, Cfg.Reach env p (Cfg.init devices w) ls a ∧ a.conns = s.cfg.conns ∧ a.flights = s.cfg.flights ∧
      a.queue = s.cfg.queue ∧ a.shared.used = s.cfg.shared.used ∧
      a.shared.available = s.cfg.shared.available ∧
      (∀ o, crashed a.shared.world o = crashed s.cfg.shared.world o) ∧
      ∀ o, s.free o → a.shared.world.user o = s.cfg.shared.world.user o := by
  obtain ⟨_, w', hA, hr⟩ := Abs.reach hb h
  exact ⟨_, hr, rfl, rfl, rfl, rfl, rfl, fun o => crashed_congr hA.ifp hA.devp o, hA.free⟩

/-- C75: when nobody is inside handler code, nothing is different at all. -/
theorem C75_quiet {τ} (code : Code τ) (env : Env (HandlerId → τ)) (hb : Behaves code env) (p : Profile)
    (devices : List Device) (w : World (HandlerId → τ)) (ls : List (Label (HandlerId → τ))) (s : Fine code)
    (h : Fine.Reach code env p (Fine.init code devices w) ls s) (hq : ∀ o, s.free o) :
    Cfg.Reach env p (Cfg.init devices w) ls s.cfg := by
  obtain ⟨_, w', hA, hr⟩ := Abs.reach hb h
  have : w' = s.cfg.shared.world := by
    rcases w' with ⟨u, a, b⟩
    have h1 := hA.ifp
    have h2 := hA.devp
    have h3 : u = s.cfg.shared.world.user := funext fun o => hA.free o (hq o)
    dsimp only at h1 h2
    rw [h1, h2, h3]
  rw [this] at hr
  exact hr

/-- C75, down to the one-at-a-time model: a connection between two commands, and a handler object
nobody is using, are what the events so far give when executed one at a time. -/
theorem C75_observed {τ} (code : Code τ) (env : Env (HandlerId → τ)) (hb : Behaves code env) (p : Profile)
    (devices : List Device) (w : World (HandlerId → τ)) (ls : List (Label (HandlerId → τ))) (s : Fine code)
    (h : Fine.Reach code env p (Fine.init code devices w) ls s) :
    let S := (Sys.init devices w).run env p (ls.filterMap Label.event)
    (∀ c, s.cfg.idle c → s.cfg.conns c = S.conns c) ∧
    (∀ o, s.free o → s.cfg.shared.world.user o = S.shared.world.user o) ∧
    (∀ o, crashed s.cfg.shared.world o = crashed S.shared.world o) := by
  obtain ⟨a, hr, hc, hf, _, _, _, hp, hu⟩ := C75_atomic code env hb p devices w ls s h
  obtain ⟨h1, h2, _, _⟩ := C35_observed env p devices w ls a hr
  refine ⟨fun c hi => ?_, fun o ho => ?_, fun o => ?_⟩
  · rw [← hc]
    exact h2 c (fun t f ht => hi t f (by rw [← hf]; exact ht))
  · rw [← hu o ho, h1]
  · rw [← hp o, h1]

/-- C75: a handler object is used by one at a time: no two tasks, no task and the application, no two
threads of the application; and never by a task after it has panicked. -/
theorem C75_exclusive {τ} (code : Code τ) (env : Env (HandlerId → τ)) (hb : Behaves code env) (p : Profile)
    (devices : List Device) (w : World (HandlerId → τ)) (ls : List (Label (HandlerId → τ))) (s : Fine code)
    (h : Fine.Reach code env p (Fine.init code devices w) ls s) :
    (∀ t u i j, s.inside t = some i → s.inside u = some j → code.obj i.call.target = code.obj j.call.target → t = u) ∧
    (∀ t i a e, s.inside t = some i → s.app a ≠ some (code.obj i.call.target, e)) ∧
    (∀ a b o e e', s.app a = some (o, e) → s.app b = some (o, e') → a = b) ∧
    (∀ t i, s.inside t = some i → crashed s.cfg.shared.world i.call.target = false) := by
  obtain ⟨hI, _⟩ := Abs.reach hb h
  exact ⟨hI.one, hI.mixed, hI.oneApp, hI.alive⟩

/-- What a task that is at a handler call can do when the handler's mutex is free. -/
theorem go_call {τ} {code : Code τ} {env : Env (HandlerId → τ)} {p : Profile} {s : Fine code}
    (hret : Returns code) (hC : Covered env p s.cfg) (hI : MInv env s) {t : Nat} {f : Flight (HandlerId → τ)}
    {g k} {c : HCall} (ht : s.cfg.flights t = some f) (hk : f.code = .commit g k)
    (hc : s.cfg.call p f = some c) (hi : s.inside t = none) (hf : s.free (code.obj c.target)) :
    ∃ s' ls, Fine.Reach code env p s ls s' ∧ .effect t f.ev ∈ ls := by
  have hcov := hC t f g k ht hk
  rw [hc] at hcov
  obtain ⟨_, cont, hr⟩ := hcov
  cases hp : crashed s.cfg.shared.world c.target with
  | true => exact ⟨_, _, Fine.Reach.one (.poisoned s t f g k c cont ht hk hc hr hi hp), by simp⟩
  | false =>
    have st := Fine.Step.enter (code := code) s t f g k c cont ht hk hc hr hi hf hp
    obtain ⟨s', f', hf', hr', _⟩ := leave_reach (p := p) hret (hI.step hC st) (t := t) (upd_self _ _ _)
    dsimp only at hf'
    rw [ht] at hf'; cases hf'
    exact ⟨s', _, (Fine.Reach.one st).trans hr', by simp⟩

/-- C75: if handler code always returns, then no handler call is stuck: in every reachable state every
program that has come to its handler call can still make it (the threads and tasks that hold the
mutex only have to go on). -/
theorem C75_progress {τ} (code : Code τ) (env : Env (HandlerId → τ)) (hb : Behaves code env)
    (hret : Returns code) (p : Profile)
    (devices : List Device) (w : World (HandlerId → τ)) (ls : List (Label (HandlerId → τ))) (s : Fine code)
    (h : Fine.Reach code env p (Fine.init code devices w) ls s) (t : Nat) (f : Flight (HandlerId → τ))
    (g : World (HandlerId → τ) → World (HandlerId → τ)) (k : World (HandlerId → τ) → Task (HandlerId → τ))
    (ht : s.cfg.flights t = some f) (hk : f.code = .commit g k) :
    ∃ s' ls', Fine.Reach code env p s ls' s' ∧ .effect t f.ev ∈ ls' := by
  obtain ⟨hI, w', hA, hr⟩ := Abs.reach hb h
  have hC : Covered env p s.cfg := fun t f g k ht hk => covered hr t f g k ht hk
  cases hin : s.inside t with
  | some i =>
    obtain ⟨s', f', hf', hr', _⟩ := leave_reach (p := p) hret hI hin
    rw [ht] at hf'; cases hf'
    exact ⟨s', _, hr', by simp⟩
  | none =>
    cases hc : s.cfg.call p f with
    | none =>
      refine ⟨_, _, Fine.Reach.one (.outer s (.effect t f.ev) _ (.commit s.cfg t f g k ht hk) ?_ ?_ ?_), by simp⟩
      · intro u hu
        simp only [prog, Option.some.injEq] at hu
        exact hu ▸ hin
      · intro f' cr e; simp at e
      · intro u ev f' e hf'
        simp only [Label.effect.injEq] at e
        obtain ⟨rfl, _⟩ := e
        rw [ht] at hf'; cases hf'; exact hc
    | some c =>
      by_cases hfree : s.free (code.obj c.target)
      · exact go_call hret hC hI ht hk hc hin hfree
      · -- somebody holds the mutex: first let them go on
        by_cases h1 : ∃ u j, s.inside u = some j ∧ code.obj j.call.target = code.obj c.target
        · obtain ⟨u, j, hu, hj⟩ := h1
          obtain ⟨s1, f1, hf1, hr1, hins, happ, hfl, hcall⟩ := leave_reach (p := p) hret hI hu
          have hne : t ≠ u := fun e => by subst e; rw [hin] at hu; simp at hu
          obtain ⟨hI1, w1, hA1, hcr1⟩ := Abs.reach hb (h.trans hr1)
          have hC1 : Covered env p s1.cfg := fun t f g k ht hk => covered hcr1 t f g k ht hk
          have ht1 : s1.cfg.flights t = some f := by rw [hfl t hne]; exact ht
          have hin1 : s1.inside t = none := by rw [hins, upd_ne _ _ hne]; exact hin
          have hfree1 : s1.free (code.obj c.target) := by
            refine ⟨fun v i hv e => ?_, fun a e ha => ?_⟩
            · rw [hins] at hv
              by_cases ev : v = u
              · subst ev; rw [upd_self] at hv; simp at hv
              · rw [upd_ne _ _ ev] at hv
                exact ev (hI.one v u i j hv hu (e.trans hj.symm))
            · rw [happ, ← hj] at ha
              exact hI.mixed u j a e hu ha
          obtain ⟨s2, l2, hr2, hm⟩ := go_call hret hC1 hI1 ht1 hk ((hcall f).trans hc) hin1 hfree1
          exact ⟨s2, _, hr1.trans hr2, List.mem_append_right _ hm⟩
        · have h2 : ∃ a e, s.app a = some (code.obj c.target, e) := Classical.byContradiction fun hn =>
            hfree ⟨fun u j hu e => h1 ⟨u, j, hu, e⟩, fun a e ha => hn ⟨a, e, ha⟩⟩
          obtain ⟨a, e, ha⟩ := h2
          have st := Fine.Step.appLeave (code := code) (env := env) (p := p) s a (code.obj c.target) e ha
          obtain ⟨hI1, _⟩ := Abs.reach hb (h.tail st)
          have hfree1 : ({ s with app := upd s.app a none } : Fine code).free (code.obj c.target) := by
            refine ⟨fun u j hu e => h1 ⟨u, j, hu, e⟩, fun b e' hb' => ?_⟩
            dsimp only at hb'
            by_cases eb : b = a
            · subst eb; rw [upd_self] at hb'; simp at hb'
            · rw [upd_ne _ _ eb] at hb'
              exact eb (hI.oneApp b a _ e' e hb' ha)
          obtain ⟨s2, l2, hr2, hm⟩ := go_call (s := { s with app := upd s.app a none }) hret hC hI1 ht hk hc hin hfree1
          exact ⟨s2, _, (Fine.Reach.one st).trans hr2, List.mem_append_right _ hm⟩

/-- C75: a handler call that does not return stops everybody: as long as it lasts, no program gets the used
devices for writing (which importing a device and giving one back need), and the used devices stay
as they are. -/
theorem C75_stalled {τ} (code : Code τ) (env : Env (HandlerId → τ)) (hb : Behaves code env) (p : Profile)
    (devices : List Device) (w : World (HandlerId → τ)) (ls ls' : List (Label (HandlerId → τ)))
    (s s' : Fine code) (h : Fine.Reach code env p (Fine.init code devices w) ls s) (t : Nat) (i : Inside code)
    (hi : s.inside t = some i)
    (hn : ∀ l v, Goes code (code.start i.call) i.entry l v → code.result l = none)
    (h' : Fine.Reach code env p s ls' s') :
    (∃ j, s'.inside t = some j ∧ j.call = i.call) ∧
    (∀ u f, s'.cfg.flights u = some f → f.held .used ≠ some .w) ∧
    s'.cfg.shared.used = s.cfg.shared.used := by
  have now : ∀ ls s j, Fine.Reach code env p (Fine.init code devices w) ls s → s.inside t = some j →
      ∀ u f, s.cfg.flights u = some f → f.held .used ≠ some .w := by
    intro ls s j h hj u f hu hw
    obtain ⟨hI, w', hA, hr⟩ := Abs.reach hb h
    obtain ⟨f', _, _, hf', hk', _, hhe⟩ := hI.call t j hj
    by_cases e : u = t
    · subst e; rw [hu] at hf'; cases hf'; rw [hhe] at hw; simp at hw
    · have := (CInv.reach hr).excl t u f' f .used .r .w (fun e' => e e'.symm) hf' hu hhe hw
      rw [compatible_w] at this; simp at this
  have main : (∃ j, s'.inside t = some j ∧ j.call = i.call ∧ j.entry = i.entry) ∧
      s'.cfg.shared.used = s.cfg.shared.used := by
    induction h' with
    | refl => exact ⟨⟨i, hi, rfl, rfl⟩, rfl⟩
    | @tail l1 s1 lb s2 h1 st ih =>
      obtain ⟨⟨j, hj, hjc, hje⟩, hused⟩ := ih
      have hreach := h.trans h1
      obtain ⟨hI, w', hA, hr⟩ := Abs.reach hb hreach
      cases st with
      | outer lb cfg' st ho hu he =>
        refine ⟨⟨j, hj, hjc, hje⟩, ?_⟩
        rw [← hused]
        cases st <;> try rfl
        case putUsed t' f' v k ht' hk =>
          obtain ⟨d, hwl, _⟩ := ((CInv.reach hr).fl t' f' ht').prog
          rw [hk] at hwl
          exact absurd hwl.2.1 (now _ _ j hreach hj t' f' ht')
      | enter t' f g k c cont ht hk hc hr hi' hf hp =>
        have hne : t ≠ t' := fun e => by subst e; rw [hj] at hi'; simp at hi'
        exact ⟨⟨j, (upd_ne _ _ hne).trans hj, hjc, hje⟩, hused⟩
      | poisoned t' f g k c cont ht hk hc hr hi' hp => exact ⟨⟨j, hj, hjc, hje⟩, hused⟩
      | work t' i' ht' hr' =>
        by_cases e : t = t'
        · subst e
          rw [hj] at ht'; cases ht'
          exact ⟨⟨_, upd_self _ _ _, hjc, hje⟩, hused⟩
        · exact ⟨⟨j, (upd_ne _ _ e).trans hj, hjc, hje⟩, hused⟩
      | leave t' f i' r ht' hf hr' =>
        by_cases e : t = t'
        · subst e
          rw [hj] at ht'; cases ht'
          have := hI.goes t j hj
          rw [hjc, hje] at this
          rw [hn _ _ this] at hr'; simp at hr'
        · exact ⟨⟨j, (upd_ne _ _ e).trans hj, hjc, hje⟩, hused⟩
      | appEnter a o ha hf => exact ⟨⟨j, hj, hjc, hje⟩, hused⟩
      | appWork a o e v ha => exact ⟨⟨j, hj, hjc, hje⟩, hused⟩
      | appLeave a o e ha => exact ⟨⟨j, hj, hjc, hje⟩, hused⟩
      | appCrash a o e ha => exact ⟨⟨j, hj, hjc, hje⟩, hused⟩
      | appPanic o hf => exact ⟨⟨j, hj, hjc, hje⟩, hused⟩
  obtain ⟨⟨j, hj, hjc, _⟩, hu⟩ := main
  exact ⟨⟨j, hj, hjc⟩, now _ _ j (h.trans h') hj, hu⟩

/-- C75, the other direction: every execution of the lock-level model (in which the application, too,
acts on one handler object at a time) is one in which handler code runs step by step. -/
theorem C75_realised {τ} (code : Code τ) (env : Env (HandlerId → τ)) (hb : Behaves code env)
    (hret : Returns code) (p : Profile) (devices : List Device) (w : World (HandlerId → τ))
    (ls : List (Label (HandlerId → τ))) (a : Cfg (HandlerId → τ))
    (h : Cfg.Reach env p (Cfg.init devices w) ls a)
    (hu : ∀ f crash, .outside (.user f crash) ∈ ls →
      ∃ o v, f = (fun u => upd u o v) ∧ ∀ h, crash = some h → code.obj h = o) :
    ∃ s : Fine code, Fine.Reach code env p (Fine.init code devices w) ls s ∧ s.cfg = a ∧
      (∀ t, s.inside t = none) ∧ ∀ x, s.app x = none := by
  induction h with
  | refl => exact ⟨_, .refl, rfl, fun _ => rfl, fun _ => rfl⟩
  | @tail ls a lb a' h st ih =>
    obtain ⟨s, hs, rfl, hin, hap⟩ := ih (fun f cr hf => hu f cr (List.mem_append_left _ hf))
    have hC : Covered env p s.cfg := covered h
    have hfree : ∀ o, s.free o :=
      fun o => ⟨fun t i ht => by rw [hin t] at ht; simp at ht, fun x e hx => by rw [hap x] at hx; simp at hx⟩
    have plain : (∀ f crash, lb ≠ .outside (.user f crash)) →
        (∀ t ev f, lb = .effect t ev → s.cfg.flights t = some f → s.cfg.call p f = none) →
        ∃ s' : Fine code, Fine.Reach code env p (Fine.init code devices w) (ls ++ [lb]) s' ∧ s'.cfg = a' ∧
          (∀ t, s'.inside t = none) ∧ ∀ x, s'.app x = none := by
      intro h1 h2
      exact ⟨_, .tail hs (.outer s lb a' st (fun t _ => hin t) h1 h2), rfl, hin, hap⟩
    by_cases huser : ∃ f crash, lb = .outside (.user f crash)
    · obtain ⟨f, crash, rfl⟩ := huser
      obtain ⟨o, v, rfl, hcr⟩ := hu f crash (by simp)
      cases st
      exact ⟨_, hs.trans (app_reach env p s 0 o v (hap 0) (hfree o) crash hcr), rfl, hin, hap⟩
    · by_cases hcall : ∃ t ev f c, lb = .effect t ev ∧ s.cfg.flights t = some f ∧ s.cfg.call p f = some c
      · obtain ⟨t, ev, f, c, rfl, hft, hc⟩ := hcall
        cases st with
        | commit t f' g k ht hk =>
          rw [ht] at hft; cases hft
          exact ⟨_, hs.trans (call_reach hb hret hC ht hk hc (hin t) (hfree _)), rfl, hin, hap⟩
      · refine plain (fun f cr e => huser ⟨f, cr, e⟩) (fun t ev f hl hf => ?_)
        cases hc : s.cfg.call p f with
        | none => rfl
        | some c => exact absurd ⟨t, ev, f, c, hl, hf, hc⟩ hcall

/-- C75: two submits can be in handler code at the same time: whenever two connections have submits for
different handlers at the front of their input, both handlers can be running at once. -/
theorem C75_parallel {τ} (code : Code τ) (env : Env (HandlerId → τ)) (hb : Behaves code env) (p : Profile)
    (devices : List Device) (w : World (HandlerId → τ)) (ls : List (Label (HandlerId → τ))) (s : Fine code)
    (h : Fine.Reach code env p (Fine.init code devices w) ls s) (hfl : ∀ t, s.cfg.flights t = none)
    (hin : ∀ t, s.inside t = none) (hap : ∀ a, s.app a = none)
    (c d : Nat) (x y : Conn) (k k' : HCall) (hcd : c ≠ d)
    (hx : s.cfg.conns c = some x) (hy : s.cfg.conns d = some y) (rx : x.status = .running)
    (ry : y.status = .running) (kx : x.call p s.cfg.shared.used = some k)
    (ky : y.call p s.cfg.shared.used = some k') (hne : code.obj k.target ≠ code.obj k'.target)
    (ax : crashed s.cfg.shared.world k.target = false) (ay : crashed s.cfg.shared.world k'.target = false) :
    ∃ s' ls' i j, Fine.Reach code env p s ls' s' ∧ s'.inside 0 = some i ∧ i.call = k ∧
      s'.inside 1 = some j ∧ j.call = k' := by
  have hq : s.cfg.queue .used = [] := by
    obtain ⟨_, w', _, hr⟩ := Abs.reach hb h
    have := (QInv.reach hr).queue .used
    cases hl : s.cfg.queue .used with
    | nil => rfl
    | cons t q =>
      obtain ⟨f, _, _, hf, _⟩ := (this t).mp (by
        show t ∈ s.cfg.queue .used
        rw [hl]; exact List.mem_cons_self ..)
      exact absurd hf (by
        show s.cfg.flights t ≠ _
        rw [hfl t]; simp)
  obtain ⟨f, g, q, l1, hcode, hown, hheld, r1⟩ := arrive env p s 0 c .full x k (hfl 0) hx rx
    (fun t f ht => by rw [hfl t] at ht; simp at ht) (hin 0) hq (fun u g hu => by rw [hfl u] at hu; simp at hu) kx
  obtain ⟨_, w1, _, hr1⟩ := Abs.reach hb (h.trans r1)
  have call1 : (s.cfg.put 0 (some f)).call p f = some k := by
    simp only [Cfg.call, hown, Option.bind_some, Cfg.put, hx, kx]
  obtain ⟨_, cont, hrun⟩ := (C75_calls env p devices w _ _ hr1 0 f g q (put_same s.cfg 0 (some f)) hcode).2 k call1
  have e1 := Fine.Step.enter (code := code) (env := env) (p := p) { s with cfg := s.cfg.put 0 (some f) } 0 f g q k
    cont (put_same _ _ _) hcode call1 hrun (hin 0)
    ⟨fun t i ht => by have := hin t; simp [this] at ht, fun a e ha => by have := hap a; simp [this] at ha⟩ ax
  have r2 := r1.tail e1
  obtain ⟨f', g', q', l3, hcode', hown', _, r3⟩ := arrive env p
    { s with cfg := s.cfg.put 0 (some f), inside := upd s.inside 0 (some ⟨k, code.start k, cont, s.cfg.shared.world.user (code.obj k.target)⟩) }
    1 d .full y k' ((put_ne _ _ (by decide : (1 : Nat) ≠ 0)).trans (hfl 1)) hy ry
    (fun t f'' ht => by
      by_cases e : t = 0
      · subst e
        dsimp only at ht
        rw [put_same] at ht; cases ht; rw [hown]
        exact fun e => hcd (Option.some.inj e)
      · dsimp only at ht
        rw [put_ne _ _ e, hfl t] at ht; simp at ht)
    (by simp [upd, hin]) hq
    (fun u g hu => by
      by_cases e : u = 0
      · subst e
        dsimp only at hu
        rw [put_same] at hu; cases hu; rw [hheld]; simp
      · dsimp only at hu
        rw [put_ne _ _ e, hfl u] at hu; simp at hu) ky
  have r4 := r2.trans r3
  obtain ⟨_, w4, _, hr4⟩ := Abs.reach hb (h.trans r4)
  have call4 : ((s.cfg.put 0 (some f)).put 1 (some f')).call p f' = some k' := by
    simp only [Cfg.call, hown', Option.bind_some, Cfg.put, hy, ky]
  obtain ⟨_, cont', hrun'⟩ := (C75_calls env p devices w _ _ hr4 1 f' g' q' (put_same (s.cfg.put 0 (some f)) 1 (some f')) hcode').2 k' call4
  have e5 := Fine.Step.enter (code := code) (env := env) (p := p)
    { s with cfg := (s.cfg.put 0 (some f)).put 1 (some f'), inside := upd s.inside 0 (some ⟨k, code.start k, cont, s.cfg.shared.world.user (code.obj k.target)⟩) }
    1 f' g' q' k' cont' (put_same _ _ _) hcode' call4 hrun' (by simp [upd, hin])
    ⟨fun t i ht => by
        by_cases e : t = 0
        · subst e
          dsimp only at ht
          rw [upd_self] at ht; cases ht; exact hne
        · dsimp only at ht
          rw [upd_ne _ _ e, hin t] at ht; simp at ht,
      fun a e ha => by have := hap a; simp [this] at ha⟩ ay
  exact ⟨_, _, ⟨k, code.start k, cont, s.cfg.shared.world.user (code.obj k.target)⟩,
    ⟨k', code.start k', cont', s.cfg.shared.world.user (code.obj k'.target)⟩, r4.tail e5,
    by simp [upd], rfl, by simp [upd, Cfg.put], rfl⟩

/-! ## A concrete case

Two handlers whose code adds one to a counter, twice. -/

namespace Samples

def adder : Code Nat where
  Local := Nat
  start _ := 0
  step l v := (l + 1, v + 1)
  result l := if l = 2 then some (.ok [7]) else none

def adderEnv : Env (HandlerId → Nat) where
  iface h _ _ _ _ _ u := (.ok [7], upd u (.iface h) (u (.iface h) + 2))
  dev h _ _ _ u := (.ok [7], upd u (.dev h) (u (.dev h) + 2))

theorem adder_goes {l l' : adder.Local} {v v' : Nat} (h : Goes adder l v l' v') : @LE.le Nat _ l 2 →
    @LE.le Nat _ l' 2 ∧ v' = v + @HSub.hSub Nat Nat Nat _ l' l ∧ @LE.le Nat _ l l' := by
  intro h2
  induction h with
  | refl => exact ⟨h2, (congrArg (v + ·) (Nat.sub_self _)).symm, Nat.le_refl _⟩
  | @tail l' v' h hr ih =>
    have h5 : @Ne Nat l' 2 := by
      intro e
      have : adder.result l' = some (.ok [7]) := if_pos e
      rw [this] at hr; simp at hr
    obtain ⟨h1, h3, h4⟩ := ih
    show @LE.le Nat _ (@HAdd.hAdd Nat Nat Nat _ l' 1) 2 ∧
      v' + 1 = v + @HSub.hSub Nat Nat Nat _ (@HAdd.hAdd Nat Nat Nat _ l' 1) l ∧
      @LE.le Nat _ l (@HAdd.hAdd Nat Nat Nat _ l' 1)
    generalize (l' : Nat) = n at *
    generalize (l : Nat) = m at *
    omega

theorem adder_behaves : Behaves adder adderEnv := by
  intro c u l v r h hr
  obtain ⟨h1, h2, _⟩ := adder_goes h (Nat.zero_le _)
  have hl : @Eq Nat l 2 := by
    by_cases e : @Eq Nat l 2
    · exact e
    · have : adder.result l = none := if_neg e
      rw [this] at hr; simp at hr
  have hr' : adder.result l = some (.ok [7]) := if_pos hl
  rw [hr'] at hr
  cases hr
  have : v = u c.target + 2 := by
    rw [h2, hl]; rfl
  rw [this]
  cases c <;> rfl

theorem adder_returns : Returns adder := fun c v =>
  ⟨_, _, .tail (.tail (.refl (adder.start c) v) rfl) rfl, _, rfl⟩

/-- Import "1-1", then ask its handler 0 for data; import "1-2", then ask its device handler. -/
def clientA : Stream := ⟨wireCmd (.reqImport 0 busA) ++ wireCmd (.submit hdrIn 0 64 0 0 0 [0, 0, 0, 0, 0, 0, 0, 0] [] []), .unexpectedEof⟩
def clientB : Stream := ⟨wireCmd (.reqImport 0 busB) ++
  wireCmd (.submit ⟨1, 1, 65538, 1, 0⟩ 0 18 0 0 0 [0xC0, 6, 0, 1, 0, 0, 18, 0] [] []), .unexpectedEof⟩

def adderWorld : World (HandlerId → Nat) := ⟨fun _ => 0, fun _ => false, fun _ => false⟩

end Samples

/-- Both handlers are in the middle of their code at the same time. -/
example : ∃ ls s i j, Fine.Reach adder adderEnv dev (Fine.init adder [devA, devB] adderWorld) ls s ∧
    s.inside 0 = some i ∧ i.call.target = .iface 0 ∧ s.inside 1 = some j ∧ j.call.target = .dev 4 := by
  obtain ⟨ls, a, h, hn, hs, hc, hsub⟩ := C35_realised adderEnv dev [devA, devB] adderWorld
    [.connect 0 clientA, .iterate 0 .full, .connect 1 clientB, .iterate 1 .full]
  obtain ⟨s, hr, rfl, hin, hap⟩ := C75_realised adder adderEnv adder_behaves adder_returns dev [devA, devB] adderWorld ls a h
    (fun f cr hf => by
      have : (.user f cr) ∈ ls.filterMap Label.event := List.mem_filterMap.mpr ⟨_, hf, rfl⟩
      have := hsub.subset this
      simp at this)
  obtain ⟨x, hx⟩ : ∃ x, s.cfg.conns 0 = some x := Option.isSome_iff_exists.mp (by rw [hc]; decide +kernel)
  obtain ⟨y, hy⟩ : ∃ y, s.cfg.conns 1 = some y := Option.isSome_iff_exists.mp (by rw [hc]; decide +kernel)
  have hx' : (s.cfg.conns 0).map (fun x => (x.status, (x.call dev s.cfg.shared.used).map HCall.target))
      = some (.running, some (.iface 0)) := by rw [hc, hs]; decide +kernel
  have hy' : (s.cfg.conns 1).map (fun x => (x.status, (x.call dev s.cfg.shared.used).map HCall.target))
      = some (.running, some (.dev 4)) := by rw [hc, hs]; decide +kernel
  simp only [hx, hy, Option.map_some, Option.some.injEq, Prod.mk.injEq, Option.map_eq_some_iff] at hx' hy'
  obtain ⟨sx, k, kx, tx⟩ := hx'
  obtain ⟨sy, k', ky, ty⟩ := hy'
  obtain ⟨s', ls', i, j, r, hi, ei, hj, ej⟩ := C75_parallel adder adderEnv adder_behaves dev [devA, devB] adderWorld ls s hr hn
    hin hap 0 1 x y k k' (by decide) hx hy sx sy kx ky (by rw [tx, ty]; decide) (by rw [tx, hs]; decide +kernel)
    (by rw [ty, hs]; decide +kernel)
  exact ⟨_, s', i, j, hr.trans r, hi, by rw [ei, tx], hj, by rw [ej, ty]⟩

end Usbip
