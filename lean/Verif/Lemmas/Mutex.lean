import Verif.Spec.Mutex
import Verif.Lemmas.Progress
import Verif.Lemmas.Realise
import Verif.Lemmas.Hosted
/-! Helper lemmas: handler code that runs step by step. -/

namespace Usbip
open Spec

/-- What an invocation does, from what the handler does. -/
theorem invoke_fine {σ} (env : Env σ) (w : World σ) (c : HCall) :
    env.invoke w c = if crashed w c.target then (.panic, w) else
      ((c.answer env w.user).1.toOutcome,
        if (c.answer env w.user).1 = .panic
        then World.poison { w with user := (c.answer env w.user).2 } c.target
        else { w with user := (c.answer env w.user).2 }) := by
  cases c with
  | iface h i e l s d =>
    by_cases hp : w.ifPoisoned h = true
    · simp [Env.invoke, crashed, HCall.target, hp]
    · have hp' : crashed w (HCall.target (.iface h i e l s d)) = false := by simpa [crashed, HCall.target] using hp
      rw [hp']
      by_cases hr : (HCall.answer env w.user (.iface h i e l s d)).1 = .panic
      · rw [if_pos hr, hr]
        have hr' : (env.iface h i e l s d w.user).1 = .panic := hr
        simp [Env.invoke, hp, hr', HRes.toOutcome, World.poison, HCall.target, HCall.answer]
      · rw [if_neg hr]
        have hr' : (env.iface h i e l s d w.user).1 ≠ .panic := hr
        simp only [Env.invoke, hp]
        split
        · simp at *
        · rfl
  | dev h l s d =>
    by_cases hp : w.devPoisoned h = true
    · simp [Env.invoke, crashed, HCall.target, hp]
    · have hp' : crashed w (HCall.target (.dev h l s d)) = false := by simpa [crashed, HCall.target] using hp
      rw [hp']
      by_cases hr : (HCall.answer env w.user (.dev h l s d)).1 = .panic
      · rw [if_pos hr, hr]
        have hr' : (env.dev h l s d w.user).1 = .panic := hr
        simp [Env.invoke, hp, hr', HRes.toOutcome, World.poison, HCall.target, HCall.answer]
      · rw [if_neg hr]
        have hr' : (env.dev h l s d w.user).1 ≠ .panic := hr
        simp only [Env.invoke, hp]
        split
        · simp at *
        · rfl

/-- A step that involves no handler does not depend on the handlers' state. -/
theorem step_world {σ} {env : Env σ} {p : Profile} {s s' : Cfg σ} {lb : Label σ}
    (st : Cfg.Step env p s lb s') (hu : ∀ f crash, lb ≠ .outside (.user f crash))
    (he : ∀ t ev f g k, lb = .effect t ev → s.flights t = some f → f.code = .commit g k → Passive g k)
    (w : World σ) :
    s'.shared.world = s.shared.world ∧ Cfg.Step env p (s.withWorld w) lb (s'.withWorld w) := by
  cases st with
  | connect c input h => exact ⟨rfl, .connect _ c input h⟩
  | user f crash => exact absurd rfl (hu f crash)
  | iterate t c wr x ht hc hr hi => exact ⟨rfl, .iterate (s.withWorld w) t c wr x ht hc hr hi⟩
  | add t d ht => exact ⟨rfl, .add (s.withWorld w) t d ht⟩
  | remove t i ht => exact ⟨rfl, .remove (s.withWorld w) t i ht⟩
  | request t f l m k ht hk hw => exact ⟨rfl, .request (s.withWorld w) t f l m k ht hk hw⟩
  | grant t f l m k q ht hk hw hq hc => exact ⟨rfl, .grant (s.withWorld w) t f l m k q ht hk hw hq hc⟩
  | unlock t f l k ht hk => exact ⟨rfl, .unlock (s.withWorld w) t f l k ht hk⟩
  | getUsed t f k ht hk => exact ⟨rfl, .getUsed (s.withWorld w) t f k ht hk⟩
  | getAvail t f k ht hk => exact ⟨rfl, .getAvail (s.withWorld w) t f k ht hk⟩
  | putUsed t f v k ht hk => exact ⟨rfl, .putUsed (s.withWorld w) t f v k ht hk⟩
  | putAvail t f v k ht hk => exact ⟨rfl, .putAvail (s.withWorld w) t f v k ht hk⟩
  | commit t f g k ht hk =>
    have hp := he t f.ev f g k rfl ht hk
    have h1 := (hp s.shared.world).1
    have h2 := (hp w).1
    have h3 := (hp w).2 s.shared.world
    refine ⟨h1, ?_⟩
    have := Cfg.Step.commit (env := env) (p := p) (s.withWorld w) t f g k ht hk
    simp only [Cfg.withWorld, Cfg.put] at this ⊢
    rw [h2, h3] at this
    exact this
  | send t f k ht hk => exact ⟨rfl, .send (s.withWorld w) t f k ht hk⟩
  | finish t f x ht hk => exact ⟨rfl, .finish (s.withWorld w) t f x ht hk⟩
  | abandon t f ht hc => exact ⟨rfl, .abandon (s.withWorld w) t f ht hc⟩
  | cancel c x hc hr hi => exact ⟨rfl, .cancel (s.withWorld w) c x hc hr hi⟩

/-- Every `commit` in flight is what the connection's command says it is. -/
def Covered {σ} (env : Env σ) (p : Profile) (s : Cfg σ) : Prop :=
  ∀ t f g k, s.flights t = some f → f.code = .commit g k →
    match s.call p f with
    | none => Passive g k
    | some c => f.held .used = some .r ∧ ∃ cont, Runs env g k c cont

theorem Covered.passive {σ} {env : Env σ} {p : Profile} {s s' : Cfg σ} {lb : Label σ}
    (hC : Covered env p s) (_ : Cfg.Step env p s lb s')
    (he : ∀ t ev f, lb = .effect t ev → s.flights t = some f → s.call p f = none) :
    ∀ t ev f g k, lb = .effect t ev → s.flights t = some f → f.code = .commit g k → Passive g k := by
  intro t ev f g k hl hf hk
  have := hC t f g k hf hk
  rw [he t ev f hl hf] at this
  exact this

/-- The programs, up to their `commit`, `u` being the used devices and `q` the call to be made. -/
def Task.Calls {σ} (env : Env σ) (q : List (Bytes × Device) → Option HCall) :
    Task σ → (held : Lk → Option Mode) → (u : List (Bytes × Device)) → Prop
  | .done _, _, _ => False
  | .lock l m k, held, _ => ∀ u, k.Calls env q (upd held l (some m)) u
  | .unlock l k, held, _ => ∀ u, k.Calls env q (upd held l none) u
  | .getUsed k, held, u => (k u).Calls env q held u
  | .getAvail k, held, u => ∀ v, (k v).Calls env q held u
  | .putUsed _ _, _, _ => False
  | .putAvail _ _, _, _ => False
  | .commit g k, held, u =>
    match q u with
    | none => Passive g k
    | some c => held .used = some .r ∧ ∃ cont, Runs env g k c cont
  | .send _, _, _ => False

/-- The call a program makes, as a function of the used devices. -/
def Cfg.callOf {σ} (p : Profile) (s : Cfg σ) (f : Flight σ) (u : List (Bytes × Device)) : Option HCall :=
  match f.owner.bind s.conns with
  | some x => x.call p u
  | none => none

theorem passive_id {σ} (k : Task σ) : Passive (id : World σ → World σ) (fun _ => k) :=
  fun _ => ⟨rfl, fun _ => rfl⟩

theorem iterTask_Calls {σ} (env : Env σ) (p : Profile) (x : Conn) (w : WriteRes) (u : List (Bytes × Device)) :
    (iterTask env p x w).Calls env (fun u => x.call p u) (fun _ => none) u := by
  unfold iterTask
  split
  · rename_i h
    intro _ _
    simp only [Task.Calls, Conn.call, h]
    exact passive_id _
  · rename_i h
    intro _ _ _ _
    simp only [Task.Calls, Conn.call, h]
    exact passive_id _
  · rename_i hd f len sf np iv setup data iso rest h
    intro u
    simp only [Task.Calls]
    cases hd' : x.current.bind (fun id => amGet id u) with
    | none =>
      simp only [Task.Calls, Conn.call, h, hd']
      exact passive_id _
    | some device =>
      simp only [Task.Calls, Conn.call, h, hd']
      cases hf : endpointAt device (Job.address ⟨device, hd, len, setup, data⟩) with
      | none =>
        simp only [Job.call, hf]
        intro wd
        have e : ∀ wd : World σ, Shared.submit env p ⟨[], [], wd⟩ device hd len setup data = _ :=
          fun wd => submit_missing env p ⟨[], [], wd⟩ ⟨device, hd, len, setup, data⟩ hf
        simp [e]
      | some r =>
        obtain ⟨ep, intf⟩ := r
        have e : ∀ wd : World σ, Shared.submit env p ⟨[], [], wd⟩ device hd len setup data = _ :=
          fun wd => submit_eq env p ⟨[], [], wd⟩ ⟨device, hd, len, setup, data⟩ ep intf hf
        simp only [Job.call, hf]
        cases ha : addressee device ep intf len (setupAt setup) data with
        | none =>
          intro wd
          simp only [e, handleUrb_addressee, ha]
          split
          · simp
          · simp
        | some c =>
          dsimp only
          refine ⟨by simp [upd], fun o => .send <| .unlock .used <| .done (.conn (x.finish p rest
              (.submit hd f len sf np iv setup data iso) w x.current
              (match o with
                | .ok b => .ok (usbipRetSubmitSuccess { hd with command := 3 } 0 0 b [])
                | .err _ => .ok (usbipRetSubmitFail { hd with command := 3 })
                | .panic => .panic
                | .diverge => .diverge))), fun wd => ⟨?_, ?_⟩⟩
          · simp only [e, handleUrb_addressee, ha]
          · simp only [e, handleUrb_addressee, ha]
            cases (env.invoke wd c).1 <;> rfl
  · rename_i h
    intro _
    simp only [Task.Calls, Conn.call, h]
    exact passive_id _
  · rename_i h
    simp only [releaseTask]
    split
    · simp only [Task.Calls, Conn.call, h]
      exact passive_id _
    · intro _ _
      simp only [Task.Calls, Conn.call, h]
      exact passive_id _
  · rename_i h1 h2 h3 h4 h5
    have : x.call p u = none := by
      unfold Conn.call
      split
      · rename_i h; exact absurd h (h3 _ _ _ _ _ _ _ _ _ _)
      · rfl
    simp only [Task.Calls, this]
    exact passive_id _

/-- What the programs' calls depend on: how the lock on the used devices is held, and whose
connection is whose. -/
structure Tame {σ} (s : Cfg σ) : Prop where
  excl : ∀ t u f g, t ≠ u → s.flights t = some f → s.flights u = some g → g.held .used = some .w →
    f.held .used = none
  get : ∀ t f k, s.flights t = some f → f.code = .getUsed k → f.held .used ≠ none
  put : ∀ t f v k, s.flights t = some f → f.code = .putUsed v k → f.held .used = some .w
  once : ∀ t f g k, s.flights t = some f → f.code = .commit g k → f.committed = false
  owners : ∀ t u f g c, s.flights t = some f → s.flights u = some g → f.owner = some c → g.owner = some c → t = u
  owner : ∀ t f c, s.flights t = some f → f.owner = some c → ∃ x, s.conns c = some x

theorem CInv.tame {σ} {env : Env σ} {p : Profile} {S : Sys σ} {s : Cfg σ} (hI : CInv env p S s) : Tame s where
  excl t u f g hne ht hu hw := by
    cases hm : f.held .used with
    | none => rfl
    | some m =>
      have := hI.excl t u f g .used m .w hne ht hu hm hw
      rw [compatible_w] at this; simp at this
  get t f k ht hk := by
    obtain ⟨d, hwl, _⟩ := (hI.fl t f ht).prog
    rw [hk] at hwl
    exact hwl.1
  put t f v k ht hk := by
    obtain ⟨d, hwl, _⟩ := (hI.fl t f ht).prog
    rw [hk] at hwl
    exact hwl.2.1
  once t f g k ht hk := by
    obtain ⟨d, hwl, _⟩ := (hI.fl t f ht).prog
    rw [hk] at hwl
    exact hwl.1
  owners := hI.owners
  owner t f c ht hc := by
    obtain ⟨x, hx, _⟩ := (hI.fl t f ht).owner c hc
    exact ⟨x, hx⟩

theorem Tame.conn {σ} {env : Env σ} {p : Profile} {s s' : Cfg σ} {lb : Label σ}
    (hI : Tame s) (st : Cfg.Step env p s lb s') {u : Nat} {g f : Flight σ}
    (hu : s'.flights u = some g) (hf : s.flights u = some f) {c : Nat} (hc : f.owner = some c) :
    s'.conns c = s.conns c := by
  obtain ⟨x, hx⟩ := hI.owner u f c hf hc
  cases st <;> try rfl
  case connect c' input h =>
    have : c ≠ c' := by rintro rfl; rw [hx] at h; simp at h
    exact setConn_ne this
  case cancel c' x' h hr' hi =>
    have : c ≠ c' := by rintro rfl; exact hi u f hf hc
    exact setConn_ne this
  case finish t f' x' ht hk =>
    have hne : u ≠ t := by rintro rfl; simp [Cfg.put, upd_self] at hu
    dsimp only [finished, Cfg.put]
    cases ho : f'.owner with
    | none => rfl
    | some c' =>
      have : c ≠ c' := by rintro rfl; exact hne (hI.owners u t f f' c hf ht hc ho)
      cases x' with
      | call r => rfl
      | conn y => exact setConn_ne this
  case abandon t f' ht hk =>
    have hne : u ≠ t := by rintro rfl; simp [Cfg.put, upd_self] at hu
    dsimp only [dropped, Cfg.put]
    cases ho : f'.owner with
    | none => rfl
    | some c' =>
      have : c ≠ c' := by rintro rfl; exact hne (hI.owners u t f f' c hf ht hc ho)
      dsimp only
      cases s.conns c' with
      | none => rfl
      | some y => exact setConn_ne this

/-- The programs that have had no effect yet will make the calls of their connections' commands. -/
def CallsInv {σ} (env : Env σ) (p : Profile) (s : Cfg σ) : Prop :=
  ∀ t f, s.flights t = some f → f.committed = false → ∀ u, (f.held .used ≠ none → u = s.shared.used) →
    f.code.Calls env (s.callOf p f) f.held u

theorem CallsInv.step {σ} {env : Env σ} {p : Profile} {s s' : Cfg σ} {lb : Label σ} (hI : Tame s)
    (ih : CallsInv env p s) (st : Cfg.Step env p s lb s') : CallsInv env p s' := by
  intro t g ht hcm u hu
  by_cases hne : prog lb = some t
  case neg =>
    rw [flights_other st hne] at ht
    have hq : s'.callOf p g = s.callOf p g := by
      funext v
      unfold Cfg.callOf
      cases ho : g.owner with
      | none => rfl
      | some c =>
        have := hI.conn st ((flights_other st hne).trans ht) ht ho
        simp only [Option.bind_some, this]
    rw [hq]
    refine ih t g ht hcm u (fun hn => ?_)
    rw [hu hn]
    -- nobody writes the used devices while `t` holds their lock
    cases st <;> try rfl
    case putUsed t' f' v k ht' hk =>
      have hne' : t' ≠ t := fun e => hne (by rw [e]; rfl)
      exact absurd (hI.excl t t' g f' hne'.symm ht ht' (hI.put t' f' v k ht' hk)) hn
  case pos =>
    have hq : ∀ f g' : Flight σ, s.flights t = some f → g'.owner = f.owner → s'.flights t = some g →
        s'.callOf p g' = s.callOf p f := by
      intro f g' hf hown hg
      funext v
      unfold Cfg.callOf
      rw [hown]
      cases ho : f.owner with
      | none => rfl
      | some c => simp only [Option.bind_some, hI.conn st hg hf ho]
    have hq' : ∀ f, s.flights t = some f → g.owner = f.owner → s'.callOf p g = s.callOf p f :=
      fun f hf hown => hq f g hf hown ht
    clear hq
    cases st <;> simp only [prog, Option.some.injEq, reduceCtorEq] at hne
    case iterate t' c wr x hft hc hr hi =>
      subst hne
      simp only [Cfg.put, upd_self, Option.some.injEq] at ht
      subst ht
      have : (s.put t' (some (Flight.start (.iterate c wr) (some c) (iterTask env p x wr)))).callOf p
          (Flight.start (.iterate c wr) (some c) (iterTask env p x wr)) = fun u => x.call p u := by
        funext v
        simp only [Cfg.callOf, Flight.start, Cfg.put, Option.bind_some, hc]
      rw [this]
      exact iterTask_Calls env p x wr u
    case add t' d hft =>
      subst hne
      simp only [Cfg.put, upd_self, Option.some.injEq] at ht
      subst ht
      intro _
      simp only [Task.Calls, Cfg.callOf, Flight.start, Option.bind_none]
      exact passive_id _
    case remove t' i hft =>
      subst hne
      simp only [Cfg.put, upd_self, Option.some.injEq] at ht
      subst ht
      intro _ a
      dsimp only
      split
      · simp only [Task.Calls, Cfg.callOf, Flight.start, Option.bind_none]
        exact passive_id _
      · intro _
        simp only [Task.Calls, Cfg.callOf, Flight.start, Option.bind_none]
        exact passive_id _
    case request t' f l m k hft hk hw =>
      subst hne
      simp only [Cfg.put, upd_self, Option.some.injEq] at ht
      subst ht
      rw [hq' f hft rfl]
      exact ih t' f hft hcm u hu
    case grant t' f l m k q hft hk hw hqq hc =>
      subst hne
      simp only [Cfg.put, upd_self, Option.some.injEq] at ht
      subst ht
      rw [hq' f hft rfl]
      have := ih t' f hft hcm s.shared.used (fun _ => rfl)
      rw [hk] at this
      exact this u
    case unlock t' f l k hft hk =>
      subst hne
      simp only [Cfg.put, upd_self, Option.some.injEq] at ht
      subst ht
      rw [hq' f hft rfl]
      have := ih t' f hft hcm s.shared.used (fun _ => rfl)
      rw [hk] at this
      exact this u
    case getUsed t' f k hft hk =>
      subst hne
      simp only [Cfg.put, upd_self, Option.some.injEq] at ht
      subst ht
      rw [hq' f hft rfl]
      have := ih t' f hft hcm s.shared.used (fun _ => rfl)
      rw [hk] at this
      have e : u = s.shared.used := hu (hI.get t' f k hft hk)
      rw [e]
      exact this
    case getAvail t' f k hft hk =>
      subst hne
      simp only [Cfg.put, upd_self, Option.some.injEq] at ht
      subst ht
      rw [hq' f hft rfl]
      have := ih t' f hft hcm u hu
      rw [hk] at this
      exact this _
    case putUsed t' f v k hft hk =>
      subst hne
      simp only [Cfg.put, upd_self, Option.some.injEq] at ht
      subst ht
      have := ih t' f hft hcm s.shared.used (fun _ => rfl)
      rw [hk] at this
      exact this.elim
    case putAvail t' f v k hft hk =>
      subst hne
      simp only [Cfg.put, upd_self, Option.some.injEq] at ht
      subst ht
      have := ih t' f hft hcm s.shared.used (fun _ => rfl)
      rw [hk] at this
      exact this.elim
    case commit t' f g' k hft hk =>
      subst hne
      simp only [Cfg.put, upd_self, Option.some.injEq] at ht
      subst ht
      simp at hcm
    case send t' f k hft hk =>
      subst hne
      simp only [Cfg.put, upd_self, Option.some.injEq] at ht
      subst ht
      have := ih t' f hft hcm s.shared.used (fun _ => rfl)
      rw [hk] at this
      exact this.elim
    case finish t' f x hft hk =>
      subst hne
      simp only [Cfg.put, upd_self, reduceCtorEq] at ht
    case abandon t' f hft hc =>
      subst hne
      simp only [Cfg.put, upd_self, reduceCtorEq] at ht

theorem Covered.reach {σ} {env : Env σ} {p : Profile} {devices : List Device} {w : World σ}
    {ls : List (Label σ)} {s : Cfg σ} (h : Cfg.Reach env p (Cfg.init devices w) ls s) : CallsInv env p s := by
  induction h with
  | refl => intro t f h; simp [Cfg.init] at h
  | tail h st ih => exact ih.step (CInv.reach h).tame st

theorem CallsInv.covered {σ} {env : Env σ} {p : Profile} {s : Cfg σ} (hI : Tame s) (h : CallsInv env p s) :
    Covered env p s := by
  intro t f g k ht hk
  have := h t f ht (hI.once t f g k ht hk) s.shared.used (fun _ => rfl)
  rw [hk] at this
  exact this

theorem covered {σ} {env : Env σ} {p : Profile} {devices : List Device} {w : World σ}
    {ls : List (Label σ)} {s : Cfg σ} (h : Cfg.Reach env p (Cfg.init devices w) ls s) : Covered env p s :=
  (Covered.reach h).covered (CInv.reach h).tame

/-- What is always true about the handlers' mutexes. -/
structure MInv {τ} {code : Code τ} (env : Env (HandlerId → τ)) (s : Fine code) : Prop where
  call : ∀ t i, s.inside t = some i → ∃ f g k, s.cfg.flights t = some f ∧ f.code = .commit g k ∧
    Runs env g k i.call i.cont ∧ f.held .used = some .r
  alive : ∀ t i, s.inside t = some i → crashed s.cfg.shared.world i.call.target = false
  goes : ∀ t i, s.inside t = some i →
    Goes code (code.start i.call) i.entry i.loc (s.cfg.shared.world.user (code.obj i.call.target))
  one : ∀ t u i j, s.inside t = some i → s.inside u = some j → code.obj i.call.target = code.obj j.call.target → t = u
  mixed : ∀ t i a e, s.inside t = some i → s.app a ≠ some (code.obj i.call.target, e)
  oneApp : ∀ a b h e e', s.app a = some (h, e) → s.app b = some (h, e') → a = b

/-- `w` is the handlers' state as if the invocations in progress had not begun. -/
structure Abs {τ} {code : Code τ} (s : Fine code) (w : World (HandlerId → τ)) : Prop where
  ifp : w.ifPoisoned = s.cfg.shared.world.ifPoisoned
  devp : w.devPoisoned = s.cfg.shared.world.devPoisoned
  free : ∀ h, s.free h → w.user h = s.cfg.shared.world.user h
  inside : ∀ t i, s.inside t = some i → w.user (code.obj i.call.target) = i.entry
  app : ∀ a h e, s.app a = some (h, e) → w.user h = e

theorem crashed_congr {σ σ'} {w : World σ} {w' : World σ'} (h1 : w.ifPoisoned = w'.ifPoisoned)
    (h2 : w.devPoisoned = w'.devPoisoned) (h : HandlerId) : crashed w h = crashed w' h := by
  cases h <;> simp [crashed, h1, h2]

theorem crashed_poison {σ} (w : World σ) {h h' : HandlerId} (hne : h' ≠ h) :
    crashed (w.poison h) h' = crashed w h' := by
  cases h <;> cases h' <;> simp_all [crashed, World.poison]

theorem poison_user {σ} (w : World σ) (h : HandlerId) : (w.poison h).user = w.user := by
  cases h <;> rfl

theorem MInv.init {τ} (code : Code τ) (env : Env (HandlerId → τ)) (devices : List Device)
    (w : World (HandlerId → τ)) : MInv env (Fine.init code devices w) where
  call t i h := by simp [Fine.init] at h
  alive t i h := by simp [Fine.init] at h
  goes t i h := by simp [Fine.init] at h
  one t u i j h := by simp [Fine.init] at h
  mixed t i a e h := by simp [Fine.init] at h
  oneApp a b h e e' h' := by simp [Fine.init] at h'

theorem MInv.step {τ} {code : Code τ} {env : Env (HandlerId → τ)} {p : Profile} {s s' : Fine code}
    {lb : Option (Label (HandlerId → τ))} (hC : Covered env p s.cfg) (hI : MInv env s)
    (st : Fine.Step code env p s lb s') : MInv env s' := by
  cases st with
  | outer lb cfg' st ho hu he =>
    have hw := (step_world st hu (hC.passive st he) s.cfg.shared.world).1
    refine ⟨fun t i hi => ?_, fun t i hi => ?_, fun t i hi => ?_, hI.one, hI.mixed, hI.oneApp⟩
    · obtain ⟨f, g, k, hf, hk, hr⟩ := hI.call t i hi
      refine ⟨f, g, k, ?_, hk, hr⟩
      rw [← hf]
      exact flights_other st (fun e => by have := ho t e; dsimp only at hi; rw [this] at hi; simp at hi)
    · dsimp only; rw [hw]; exact hI.alive t i hi
    · dsimp only; rw [hw]; exact hI.goes t i hi
  | enter t f g k c cont ht hk hc hr hi hf hp =>
    have hhe := hC t f g k ht hk
    rw [hc] at hhe
    have hhe := hhe.1
    refine ⟨fun u j hj => ?_, fun u j hj => ?_, fun u j hj => ?_, fun u v j l hj hl hjl => ?_,
      fun u j a e hj => ?_, hI.oneApp⟩ <;> dsimp only at hj
    · by_cases e : u = t
      · subst e; rw [upd_self] at hj; cases hj; exact ⟨f, g, k, ht, hk, hr, hhe⟩
      · rw [upd_ne _ _ e] at hj; exact hI.call u j hj
    · by_cases e : u = t
      · subst e; rw [upd_self] at hj; cases hj; exact hp
      · rw [upd_ne _ _ e] at hj; exact hI.alive u j hj
    · by_cases e : u = t
      · subst e; rw [upd_self] at hj; cases hj; exact .refl _ _
      · rw [upd_ne _ _ e] at hj; exact hI.goes u j hj
    · dsimp only at hl
      by_cases e : u = t <;> by_cases e' : v = t
      · rw [e, e']
      · subst e; rw [upd_self] at hj; cases hj; rw [upd_ne _ _ e'] at hl
        exact absurd hjl.symm (hf.1 v l hl)
      · subst e'; rw [upd_self] at hl; cases hl; rw [upd_ne _ _ e] at hj
        exact absurd hjl (hf.1 u j hj)
      · rw [upd_ne _ _ e] at hj; rw [upd_ne _ _ e'] at hl
        exact hI.one u v j l hj hl hjl
    · by_cases e' : u = t
      · subst e'; rw [upd_self] at hj; cases hj; exact hf.2 a e
      · rw [upd_ne _ _ e'] at hj; exact hI.mixed u j a e hj
  | poisoned t f g k c cont ht hk hc hr hi hp =>
    refine ⟨fun u j hj => ?_, hI.alive, hI.goes, hI.one, hI.mixed, hI.oneApp⟩
    obtain ⟨f', g', k', hf', hk', hr'⟩ := hI.call u j hj
    refine ⟨f', g', k', ?_, hk', hr'⟩
    have hne : u ≠ t := fun e => by subst e; dsimp only at hj; rw [hi] at hj; simp at hj
    dsimp only [Cfg.resume]
    rw [put_ne _ _ hne]; exact hf'
  | work t i ht hr =>
    refine ⟨fun u j hj => ?_, fun u j hj => ?_, fun u j hj => ?_, fun u v j l hj hl hjl => ?_,
      fun u j a e hj => ?_, hI.oneApp⟩ <;> dsimp only [Fine.setObj] at hj
    · by_cases e : u = t
      · subst e; rw [upd_self] at hj; cases hj; exact hI.call u i ht
      · rw [upd_ne _ _ e] at hj; exact hI.call u j hj
    · dsimp only [Fine.setObj, Cfg.withWorld]
      refine (crashed_congr (w' := s.cfg.shared.world) (by rfl) (by rfl) _).trans ?_
      by_cases e : u = t
      · subst e; rw [upd_self] at hj; cases hj; exact hI.alive u i ht
      · rw [upd_ne _ _ e] at hj; exact hI.alive u j hj
    · dsimp only [Fine.setObj, Cfg.withWorld]
      by_cases e : u = t
      · subst e; rw [upd_self] at hj; cases hj
        dsimp only
        rw [upd_self]
        exact .tail (hI.goes u i ht) hr
      · rw [upd_ne _ _ e] at hj
        rw [upd_ne _ _ (fun e' => e (hI.one u t j i hj ht e'))]
        exact hI.goes u j hj
    · dsimp only [Fine.setObj] at hl
      have tgt : ∀ u j, upd s.inside t (some ({ i with
          loc := (code.step i.loc (s.cfg.shared.world.user (code.obj i.call.target))).1 } : Inside code)) u = some j →
          ∃ j', s.inside u = some j' ∧ code.obj j'.call.target = code.obj j.call.target := by
        intro u j hj
        by_cases e : u = t
        · subst e; rw [upd_self] at hj; cases hj; exact ⟨i, ht, rfl⟩
        · rw [upd_ne _ _ e] at hj; exact ⟨j, hj, rfl⟩
      obtain ⟨j', hj', e1⟩ := tgt u j hj
      obtain ⟨l', hl', e2⟩ := tgt v l hl
      exact hI.one u v j' l' hj' hl' (by rw [e1, e2, hjl])
    · by_cases e' : u = t
      · subst e'; rw [upd_self] at hj; cases hj; exact hI.mixed u i a e ht
      · rw [upd_ne _ _ e'] at hj; exact hI.mixed u j a e hj
  | leave t f i r ht hf hr =>
    have back : ∀ u j, upd s.inside t none u = some j → u ≠ t ∧ s.inside u = some j := by
      intro u j hj
      by_cases e : u = t
      · subst e; rw [upd_self] at hj; simp at hj
      · rw [upd_ne _ _ e] at hj; exact ⟨e, hj⟩
    refine ⟨fun u j hj => ?_, fun u j hj => ?_, fun u j hj => ?_, fun u v j l hj hl hjl => ?_,
      fun u j a e hj => ?_, hI.oneApp⟩ <;> obtain ⟨hne, hj⟩ := back u j hj
    · obtain ⟨f', g', k', hf', hk', hr'⟩ := hI.call u j hj
      refine ⟨f', g', k', ?_, hk', hr'⟩
      dsimp only [Cfg.resume, Cfg.withWorld]
      rw [put_ne _ _ hne]; exact hf'
    · have := hI.alive u j hj
      dsimp only [Cfg.withWorld]
      split
      · rw [crashed_poison _ (fun e => hne (hI.one u t j i hj ht (congrArg code.obj e)))]; exact this
      · exact this
    · have := hI.goes u j hj
      dsimp only [Cfg.withWorld]
      split
      · rw [poison_user]; exact this
      · exact this
    · exact hI.one u v j l hj (back v l hl).2 hjl
    · exact hI.mixed u j a e hj
  | appEnter a h ha hf =>
    refine ⟨hI.call, hI.alive, hI.goes, hI.one, fun u j b e hj hb => ?_, fun b c h' e e' hb hc => ?_⟩
    · dsimp only at hj hb
      by_cases eb : b = a
      · subst eb; rw [upd_self] at hb; cases hb; exact hf.1 u j hj rfl
      · rw [upd_ne _ _ eb] at hb; exact hI.mixed u j b e hj hb
    · dsimp only at hb hc
      by_cases eb : b = a <;> by_cases ec : c = a
      · rw [eb, ec]
      · subst eb; rw [upd_self] at hb; cases hb; rw [upd_ne _ _ ec] at hc; exact absurd hc (hf.2 c e')
      · subst ec; rw [upd_self] at hc; cases hc; rw [upd_ne _ _ eb] at hb; exact absurd hb (hf.2 b e)
      · rw [upd_ne _ _ eb] at hb; rw [upd_ne _ _ ec] at hc; exact hI.oneApp b c h' e e' hb hc
  | appWork a h e v ha =>
    refine ⟨hI.call, fun t i hi => ?_, fun t i hi => ?_, hI.one, hI.mixed, hI.oneApp⟩
    · dsimp only [Fine.setObj, Cfg.withWorld]
      refine (crashed_congr (w' := s.cfg.shared.world) (by rfl) (by rfl) _).trans ?_
      exact hI.alive t i hi
    · dsimp only [Fine.setObj, Cfg.withWorld]
      have hne : code.obj i.call.target ≠ h := fun eq => hI.mixed t i a e hi (eq ▸ ha)
      rw [upd_ne _ _ hne]
      exact hI.goes t i hi
  | appLeave a h e ha =>
    have back : ∀ b x, upd s.app a none b = some x → s.app b = some x := by
      intro b x hb
      by_cases eb : b = a
      · subst eb; rw [upd_self] at hb; simp at hb
      · rw [upd_ne _ _ eb] at hb; exact hb
    exact ⟨hI.call, hI.alive, hI.goes, hI.one, fun u j b e hj hb => hI.mixed u j b e hj (back b _ hb),
      fun b c h' e e' hb hc => hI.oneApp b c h' e e' (back b _ hb) (back c _ hc)⟩
  | appCrash a h e ha =>
    have back : ∀ b x, upd s.app a none b = some x → s.app b = some x := by
      intro b x hb
      by_cases eb : b = a
      · subst eb; rw [upd_self] at hb; simp at hb
      · rw [upd_ne _ _ eb] at hb; exact hb
    refine ⟨hI.call, fun t i hi => ?_, fun t i hi => ?_, hI.one,
      fun u j b e hj hb => hI.mixed u j b e hj (back b _ hb),
      fun b c h' e e' hb hc => hI.oneApp b c h' e e' (back b _ hb) (back c _ hc)⟩
    · dsimp only [Cfg.withWorld]
      have hne : i.call.target ≠ h := fun eq => hI.mixed t i a e hi (by rw [eq]; exact ha)
      rw [crashed_poison _ hne]
      exact hI.alive t i hi
    · dsimp only [Cfg.withWorld]
      rw [poison_user]
      exact hI.goes t i hi
  | appPanic h hf =>
    refine ⟨hI.call, fun t i hi => ?_, fun t i hi => ?_, hI.one, hI.mixed, hI.oneApp⟩
    · dsimp only [Cfg.withWorld]
      rw [crashed_poison _ (hf t i hi)]
      exact hI.alive t i hi
    · dsimp only [Cfg.withWorld]
      rw [poison_user]
      exact hI.goes t i hi

/-- Every step is no step, or one step, of the lock-level model. -/
theorem Abs.step {τ} {code : Code τ} {env : Env (HandlerId → τ)} {p : Profile} {s s' : Fine code}
    {lb : Option (Label (HandlerId → τ))} (hb : Behaves code env) (hC : Covered env p s.cfg) (hI : MInv env s)
    (st : Fine.Step code env p s lb s') {w : World (HandlerId → τ)} (hA : Abs s w) :
    ∃ w', Abs s' w' ∧
      match lb with
      | none => s'.cfg.withWorld w' = s.cfg.withWorld w
      | some lb => Cfg.Step env p (s.cfg.withWorld w) lb (s'.cfg.withWorld w') := by
  cases st with
  | outer lb cfg' st ho hu he =>
    have hw := step_world st hu (hC.passive st he) w
    refine ⟨w, ⟨?_, ?_, fun h hf => ?_, hA.inside, hA.app⟩, hw.2⟩
    · dsimp only; rw [hw.1]; exact hA.ifp
    · dsimp only; rw [hw.1]; exact hA.devp
    · dsimp only; rw [hw.1]; exact hA.free h hf
  | enter t f g k c cont ht hk hc hr hi hf hp =>
    refine ⟨w, ⟨hA.ifp, hA.devp, fun h hfr => ?_, fun u j hj => ?_, hA.app⟩, rfl⟩
    · refine hA.free h ⟨fun u j hj => ?_, hfr.2⟩
      have hne : u ≠ t := fun e => by subst e; rw [hi] at hj; simp at hj
      exact hfr.1 u j (by dsimp only; rw [upd_ne _ _ hne]; exact hj)
    · dsimp only at hj
      by_cases e : u = t
      · subst e; rw [upd_self] at hj; cases hj; exact hA.free _ hf
      · rw [upd_ne _ _ e] at hj; exact hA.inside u j hj
  | poisoned t f g k c cont ht hk hc hr hi hp =>
    refine ⟨w, ⟨hA.ifp, hA.devp, hA.free, hA.inside, hA.app⟩, ?_⟩
    have hst := Cfg.Step.commit (env := env) (p := p) (s.cfg.withWorld w) t f g k ht hk
    have e : env.invoke w c = (.panic, w) := by
      rw [invoke_fine, crashed_congr hA.ifp hA.devp, hp]; rfl
    have h1 := (hr w).1
    have h2 := (hr w).2
    rw [e] at h1 h2
    simp only [Cfg.withWorld, Cfg.put, Cfg.resume] at hst ⊢
    rw [h1, h2] at hst
    exact hst
  | work t i ht hr =>
    have tgt : ∀ u j, upd s.inside t (some ({ i with
        loc := (code.step i.loc (s.cfg.shared.world.user (code.obj i.call.target))).1 } : Inside code)) u = some j →
        ∃ j', s.inside u = some j' ∧ j'.call = j.call ∧ j'.entry = j.entry := by
      intro u j hj
      by_cases e : u = t
      · subst e; rw [upd_self] at hj; cases hj; exact ⟨i, ht, rfl, rfl⟩
      · rw [upd_ne _ _ e] at hj; exact ⟨j, hj, rfl, rfl⟩
    refine ⟨w, ⟨hA.ifp, hA.devp, fun h hfr => ?_, fun u j hj => ?_, hA.app⟩, rfl⟩
    · have hne : h ≠ code.obj i.call.target := fun e =>
        hfr.1 t { i with loc := (code.step i.loc (s.cfg.shared.world.user (code.obj i.call.target))).1 }
          (by dsimp only [Fine.setObj]; rw [upd_self]) e.symm
      dsimp only [Fine.setObj, Cfg.withWorld]
      rw [upd_ne _ _ hne]
      refine hA.free h ⟨fun u j hj => ?_, hfr.2⟩
      by_cases e : u = t
      · subst e; rw [ht] at hj; cases hj; exact fun e => hne e.symm
      · exact hfr.1 u j (by dsimp only [Fine.setObj]; rw [upd_ne _ _ e]; exact hj)
    · obtain ⟨j', hj', e1, e2⟩ := tgt u j hj
      rw [← e1, ← e2]; exact hA.inside u j' hj'
  | leave t f i r ht hf hr =>
    obtain ⟨f', g, k, hf', hk, hrun, _⟩ := hI.call t i ht
    rw [hf] at hf'; cases hf'
    have hans := hb i.call w.user i.loc (s.cfg.shared.world.user (code.obj i.call.target)) r
      (by rw [hA.inside t i ht]; exact hI.goes t i ht) hr
    have hinv : env.invoke w i.call = (r.toOutcome,
        if r = .panic then World.poison { w with user := upd w.user (code.obj i.call.target) (s.cfg.shared.world.user (code.obj i.call.target)) } i.call.target
        else { w with user := upd w.user (code.obj i.call.target) (s.cfg.shared.world.user (code.obj i.call.target)) }) := by
      rw [invoke_fine, crashed_congr hA.ifp hA.devp, hI.alive t i ht, hans]; rfl
    refine ⟨(env.invoke w i.call).2, ⟨?_, ?_, fun h hfr => ?_, fun u j hj => ?_, fun a h e ha => ?_⟩, ?_⟩
    · rw [hinv]; dsimp only [Cfg.withWorld]
      split
      · cases i.call.target <;> simp [World.poison, hA.ifp]
      · exact hA.ifp
    · rw [hinv]; dsimp only [Cfg.withWorld]
      split
      · cases i.call.target <;> simp [World.poison, hA.devp]
      · exact hA.devp
    · have e1 : (env.invoke w i.call).2.user = upd w.user (code.obj i.call.target) (s.cfg.shared.world.user (code.obj i.call.target)) := by
        rw [hinv]; dsimp only; split
        · rw [poison_user]
        · rfl
      have e2 : (if r = .panic then s.cfg.shared.world.poison i.call.target else s.cfg.shared.world).user
          = s.cfg.shared.world.user := by
        split
        · rw [poison_user]
        · rfl
      rw [e1]; dsimp only [Cfg.withWorld]; rw [e2]
      by_cases e : h = code.obj i.call.target
      · subst e; rw [upd_self]
      · rw [upd_ne _ _ e]
        refine hA.free h ⟨fun u j hj => ?_, hfr.2⟩
        by_cases e' : u = t
        · subst e'; rw [ht] at hj; cases hj; exact fun e'' => e e''.symm
        · exact hfr.1 u j (by dsimp only; rw [upd_ne _ _ e']; exact hj)
    · dsimp only at hj
      by_cases e : u = t
      · subst e; rw [upd_self] at hj; simp at hj
      · rw [upd_ne _ _ e] at hj
        have e1 : (env.invoke w i.call).2.user = upd w.user (code.obj i.call.target) (s.cfg.shared.world.user (code.obj i.call.target)) := by
          rw [hinv]; dsimp only; split
          · rw [poison_user]
          · rfl
        rw [e1, upd_ne _ _ (fun e' => e (hI.one u t j i hj ht e'))]
        exact hA.inside u j hj
    · have e1 : (env.invoke w i.call).2.user = upd w.user (code.obj i.call.target) (s.cfg.shared.world.user (code.obj i.call.target)) := by
        rw [hinv]; dsimp only; split
        · rw [poison_user]
        · rfl
      rw [e1, upd_ne _ _ (fun e' => hI.mixed t i a e ht (by rw [← e']; exact ha))]
      exact hA.app a h e ha
    · have hst := Cfg.Step.commit (env := env) (p := p) (s.cfg.withWorld w) t f g k hf hk
      have h1 := (hrun w).1
      have h2 := (hrun w).2
      simp only [Cfg.withWorld, Cfg.put, Cfg.resume] at hst ⊢
      rw [h1, h2] at hst
      have : (env.invoke w i.call).1 = r.toOutcome := by rw [hinv]
      rw [this] at hst
      exact hst
  | appEnter a h ha hf =>
    refine ⟨w, ⟨hA.ifp, hA.devp, fun h' hfr => ?_, hA.inside, fun b h' e hb' => ?_⟩, rfl⟩
    · refine hA.free h' ⟨hfr.1, fun b e hb' => ?_⟩
      have hne : b ≠ a := fun e' => by subst e'; rw [ha] at hb'; simp at hb'
      exact hfr.2 b e (by dsimp only; rw [upd_ne _ _ hne]; exact hb')
    · dsimp only at hb'
      by_cases eb : b = a
      · subst eb; rw [upd_self] at hb'; cases hb'; exact hA.free h hf
      · rw [upd_ne _ _ eb] at hb'; exact hA.app b h' e hb'
  | appWork a h e v ha =>
    refine ⟨w, ⟨hA.ifp, hA.devp, fun h' hfr => ?_, hA.inside, hA.app⟩, rfl⟩
    have hne : h' ≠ h := fun e' => hfr.2 a e (e' ▸ ha)
    dsimp only [Fine.setObj, Cfg.withWorld]
    rw [upd_ne _ _ hne]
    exact hA.free h' hfr
  | appLeave a h e ha =>
    refine ⟨{ w with user := upd w.user h (s.cfg.shared.world.user h) },
      ⟨hA.ifp, hA.devp, fun h' hfr => ?_, fun t i hi => ?_, fun b h' e' hb' => ?_⟩, ?_⟩
    · dsimp only
      by_cases e' : h' = h
      · subst e'; rw [upd_self]
      · rw [upd_ne _ _ e']
        refine hA.free h' ⟨hfr.1, fun b e'' hb' => ?_⟩
        by_cases eb : b = a
        · subst eb; rw [ha] at hb'; cases hb'; exact e' rfl
        · exact hfr.2 b e'' (by dsimp only; rw [upd_ne _ _ eb]; exact hb')
    · dsimp only
      rw [upd_ne _ _ (fun e' => hI.mixed t i a e hi (by rw [e']; exact ha))]
      exact hA.inside t i hi
    · dsimp only at hb' ⊢
      by_cases eb : b = a
      · subst eb; rw [upd_self] at hb'; simp at hb'
      · rw [upd_ne _ _ eb] at hb'
        rw [upd_ne _ _ (fun e'' => eb (hI.oneApp b a h' e' e hb' (by rw [e'']; exact ha)))]
        exact hA.app b h' e' hb'
    · exact Cfg.Step.user (s.cfg.withWorld w) _ none
  | appCrash a h e ha =>
    refine ⟨World.poison { w with user := upd w.user (code.obj h) (s.cfg.shared.world.user (code.obj h)) } h,
      ⟨?_, ?_, fun h' hfr => ?_, fun t i hi => ?_, fun b h' e' hb' => ?_⟩, ?_⟩
    · dsimp only [Cfg.withWorld]
      cases h <;> simp [World.poison, hA.ifp]
    · dsimp only [Cfg.withWorld]
      cases h <;> simp [World.poison, hA.devp]
    · dsimp only [Cfg.withWorld]
      rw [poison_user, poison_user]
      dsimp only
      by_cases e' : h' = code.obj h
      · subst e'; rw [upd_self]
      · rw [upd_ne _ _ e']
        refine hA.free h' ⟨hfr.1, fun b e'' hb' => ?_⟩
        by_cases eb : b = a
        · subst eb; rw [ha] at hb'; cases hb'; exact e' rfl
        · exact hfr.2 b e'' (by dsimp only; rw [upd_ne _ _ eb]; exact hb')
    · rw [poison_user]
      dsimp only
      rw [upd_ne _ _ (fun e' => hI.mixed t i a e hi (by rw [e']; exact ha))]
      exact hA.inside t i hi
    · rw [poison_user]
      dsimp only at hb' ⊢
      by_cases eb : b = a
      · subst eb; rw [upd_self] at hb'; simp at hb'
      · rw [upd_ne _ _ eb] at hb'
        rw [upd_ne _ _ (fun e'' => eb (hI.oneApp b a h' e' e hb' (by rw [e'']; exact ha)))]
        exact hA.app b h' e' hb'
    · exact Cfg.Step.user (s.cfg.withWorld w) _ (some h)
  | appPanic h hf =>
    refine ⟨World.poison w h, ⟨?_, ?_, fun h' hfr => ?_, fun t i hi => ?_, fun b h' e' hb' => ?_⟩, ?_⟩
    · dsimp only [Cfg.withWorld]
      cases h <;> simp [World.poison, hA.ifp]
    · dsimp only [Cfg.withWorld]
      cases h <;> simp [World.poison, hA.devp]
    · dsimp only [Cfg.withWorld]
      rw [poison_user, poison_user]
      exact hA.free h' hfr
    · rw [poison_user]
      exact hA.inside t i hi
    · rw [poison_user]
      exact hA.app b h' e' hb'
    · exact Cfg.Step.user (s.cfg.withWorld w) (fun u => u) (some h)

/-- The lock-level execution behind an execution. -/
theorem Abs.reach {τ} {code : Code τ} {env : Env (HandlerId → τ)} {p : Profile} {devices : List Device}
    {w : World (HandlerId → τ)} {ls : List (Label (HandlerId → τ))} {s : Fine code} (hb : Behaves code env)
    (h : Fine.Reach code env p (Fine.init code devices w) ls s) :
    MInv env s ∧ ∃ w', Abs s w' ∧ Cfg.Reach env p (Cfg.init devices w) ls (s.cfg.withWorld w') := by
  induction h with
  | refl =>
    exact ⟨.init code env devices w, w, ⟨rfl, rfl, fun _ _ => rfl, fun t i h => by simp [Fine.init] at h,
      fun a h e h' => by simp [Fine.init] at h'⟩, .refl⟩
  | @tail ls s lb s' h st ih =>
    obtain ⟨hI, w1, hA, hr⟩ := ih
    have hC : Covered env p s.cfg := fun t f g k ht hk => covered hr t f g k ht hk
    obtain ⟨w2, hA2, hst⟩ := hA.step hb hC hI st
    refine ⟨hI.step hC st, w2, hA2, ?_⟩
    cases lb with
    | none =>
      dsimp only at hst
      rw [hst]; simpa using hr
    | some lb => exact .tail hr hst

theorem Fine.Reach.trans {τ} {code : Code τ} {env : Env (HandlerId → τ)} {p : Profile} {s s1 s2 : Fine code}
    {ls ls' : List (Label (HandlerId → τ))} (h : Fine.Reach code env p s ls s1)
    (h' : Fine.Reach code env p s1 ls' s2) : Fine.Reach code env p s (ls ++ ls') s2 := by
  induction h' with
  | refl => simpa using h
  | tail _ st ih => rw [← List.append_assoc]; exact .tail ih st

theorem Fine.Reach.one {τ} {code : Code τ} {env : Env (HandlerId → τ)} {p : Profile} {s s1 : Fine code}
    {lb : Option (Label (HandlerId → τ))} (st : Fine.Step code env p s lb s1) :
    Fine.Reach code env p s lb.toList s1 := by
  have := Fine.Reach.tail .refl st
  simpa using this

theorem Spec.Goes.trans {τ} {code : Code τ} {l l' l'' : code.Local} {v v' v'' : τ} (h : Goes code l v l' v')
    (h' : Goes code l' v' l'' v'') : Goes code l v l'' v'' := by
  induction h' with
  | refl => exact h
  | tail _ hr ih => exact .tail ih hr

theorem Spec.Goes.first {τ} {code : Code τ} {l l' : code.Local} {v v' : τ} (h : Goes code l v l' v') :
    (l' = l ∧ v' = v) ∨ (code.result l = none ∧ Goes code (code.step l v).1 (code.step l v).2 l' v') := by
  induction h with
  | refl => exact Or.inl ⟨rfl, rfl⟩
  | tail h hr ih =>
    right
    rcases ih with ⟨rfl, rfl⟩ | ⟨h1, h2⟩
    · exact ⟨hr, .refl _ _⟩
    · exact ⟨h1, h2.tail hr⟩

/-- Handler code that returns passes through every point it gets to. -/
theorem Spec.Goes.through {τ} {code : Code τ} {l l1 l2 : code.Local} {v v1 v2 : τ} (h1 : Goes code l v l1 v1)
    (h2 : Goes code l v l2 v2) (hr : ∃ r, code.result l2 = some r) : Goes code l1 v1 l2 v2 := by
  induction h1 with
  | refl => exact h2
  | tail _ hn ih =>
    rcases Spec.Goes.first ih with ⟨e1, e2⟩ | ⟨_, h⟩
    · obtain ⟨r, hr⟩ := hr
      rw [e1, hn] at hr; simp at hr
    · exact h

/-- The state after task `t`, inside handler code, has got to `l`, leaving the object as `v`. -/
def Fine.at {τ} {code : Code τ} (s : Fine code) (t : Nat) (i : Inside code) (l : code.Local) (v : τ) : Fine code :=
  ({ s with inside := upd s.inside t (some { i with loc := l }) } : Fine code).setObj (code.obj i.call.target) v

theorem Fine.at_self {τ} {code : Code τ} (s : Fine code) (t : Nat) (i : Inside code) (h : s.inside t = some i) :
    s.at t i i.loc (s.cfg.shared.world.user (code.obj i.call.target)) = s := by
  unfold Fine.at Fine.setObj Cfg.withWorld
  dsimp only
  rw [upd_eq_self]
  have : upd s.inside t (some { i with loc := i.loc }) = s.inside := by
    have := upd_eq_self s.inside t
    rw [h] at this
    exact this
  rw [this]

/-- Task `t` runs handler code, alone. -/
theorem goes_reach {τ} {code : Code τ} (env : Env (HandlerId → τ)) (p : Profile) (s : Fine code) (t : Nat)
    (i : Inside code) (hi : s.inside t = some i) {l : code.Local} {v : τ}
    (h : Goes code i.loc (s.cfg.shared.world.user (code.obj i.call.target)) l v) :
    Fine.Reach code env p s [] (s.at t i l v) := by
  induction h with
  | refl => rw [s.at_self t i hi]; exact .refl
  | @tail l' v' h hr ih =>
    have e1 : (s.at t i l' v').inside t = some { i with loc := l' } := by
      simp [Fine.at, Fine.setObj, upd_self]
    have e2 : (s.at t i l' v').cfg.shared.world.user (code.obj i.call.target) = v' := by
      simp [Fine.at, Fine.setObj, Cfg.withWorld, upd_self]
    have st := Fine.Step.work (env := env) (p := p) (s.at t i l' v') t { i with loc := l' } e1 hr
    have := ih.tail st
    dsimp only at this
    rw [e2] at this
    have e3 : (({ s.at t i l' v' with
          inside := upd (s.at t i l' v').inside t (some { i with loc := (code.step l' v').1 }) } : Fine code).setObj
            (code.obj i.call.target) (code.step l' v').2) = s.at t i (code.step l' v').1 (code.step l' v').2 := by
      simp only [Fine.at, Fine.setObj, Cfg.withWorld, upd_upd]
    rw [e3] at this
    simpa using this

/-- A task inside handler code that returns: it gets out, and nothing else changes. -/
theorem leave_reach {τ} {code : Code τ} {env : Env (HandlerId → τ)} {p : Profile} {s : Fine code}
    (hret : Returns code) (hI : MInv env s) {t : Nat} {i : Inside code} (hi : s.inside t = some i) :
    ∃ s' f, s.cfg.flights t = some f ∧ Fine.Reach code env p s [.effect t f.ev] s' ∧
      s'.inside = upd s.inside t none ∧ s'.app = s.app ∧
      (∀ u, u ≠ t → s'.cfg.flights u = s.cfg.flights u) ∧ ∀ g, s'.cfg.call p g = s.cfg.call p g := by
  obtain ⟨l, v, hg, r, hr⟩ := hret i.call i.entry
  have hgo := (hI.goes t i hi).through hg ⟨r, hr⟩
  have h1 := goes_reach env p s t i hi hgo
  obtain ⟨f, g, k, hf, _, _, _⟩ := hI.call t i hi
  have e1 : (s.at t i l v).inside t = some { i with loc := l } := by
    simp [Fine.at, Fine.setObj, upd_self]
  have st := Fine.Step.leave (env := env) (p := p) (s.at t i l v) t f { i with loc := l } r e1 hf hr
  have h2 := h1.trans (Fine.Reach.one st)
  refine ⟨_, f, hf, h2, ?_, rfl, ?_, fun _ => rfl⟩
  · simp only [Fine.at, Fine.setObj, upd_upd]
  · intro u hu
    simp only [Fine.at, Fine.setObj, Cfg.withWorld, Cfg.resume]
    exact put_ne _ _ hu

/-- The application acts on a handler object, and may panic with its mutex held. -/
theorem app_reach {τ} {code : Code τ} (env : Env (HandlerId → τ)) (p : Profile) (s : Fine code) (a : Nat)
    (o : HandlerId) (v : τ) (ha : s.app a = none) (hf : s.free o) (crash : Option HandlerId)
    (hcr : ∀ h, crash = some h → code.obj h = o) :
    Fine.Reach code env p s [.outside (.user (fun u => upd u o v) crash)]
      { s with cfg := s.cfg.withWorld (s.cfg.shared.world.used (fun u => upd u o v) crash) } := by
  have st1 := Fine.Step.appEnter (code := code) (env := env) (p := p) s a o ha hf
  have st2 := Fine.Step.appWork (code := code) (env := env) (p := p)
    { s with app := upd s.app a (some (o, s.cfg.shared.world.user o)) } a o _ v (upd_self _ _ _)
  have e : (({ s with app := upd s.app a (some (o, s.cfg.shared.world.user o)) } : Fine code).setObj o
      v).cfg.shared.world.user o = v := upd_self _ _ _
  have e2 : upd (({ s with app := upd s.app a (some (o, s.cfg.shared.world.user o)) } : Fine code).setObj o v).app a none
      = s.app := by
    simp only [Fine.setObj, upd_upd]
    have := upd_eq_self s.app a
    rwa [ha] at this
  rcases crash with _ | x
  · have st3 := Fine.Step.appLeave (code := code) (env := env) (p := p)
      (({ s with app := upd s.app a (some (o, s.cfg.shared.world.user o)) } : Fine code).setObj o v) a o _
      (upd_self _ _ _)
    have h := ((Fine.Reach.refl.tail st1).tail st2).tail st3
    rw [e, e2] at h
    exact h
  · obtain rfl := hcr x rfl
    have st3 := Fine.Step.appCrash (code := code) (env := env) (p := p)
      (({ s with app := upd s.app a (some (code.obj x, s.cfg.shared.world.user (code.obj x))) } : Fine code).setObj
        (code.obj x) v) a x _ (upd_self _ _ _)
    have h := ((Fine.Reach.refl.tail st1).tail st2).tail st3
    rw [e, e2] at h
    exact h

/-- A handler call, uninterrupted. -/
theorem call_reach' {τ} {code : Code τ} {env : Env (HandlerId → τ)} {p : Profile} {s : Fine code}
    (hb : Behaves code env) {c : HCall}
    (hret : crashed s.cfg.shared.world c.target = false → ∃ l v', Goes code (code.start c) (s.cfg.shared.world.user (code.obj c.target)) l v' ∧
      ∃ r, code.result l = some r) (hC : Covered env p s.cfg) {t : Nat}
    {f : Flight (HandlerId → τ)} {g k} (ht : s.cfg.flights t = some f) (hk : f.code = .commit g k)
    (hc : s.cfg.call p f = some c) (hi : s.inside t = none) (hf : s.free (code.obj c.target)) :
    Fine.Reach code env p s [.effect t f.ev] { s with cfg :=
      { s.cfg.put t (some { f with code := k s.cfg.shared.world, committed := true })
        with shared := { s.cfg.shared with world := g s.cfg.shared.world } } } := by
  have hcov := hC t f g k ht hk
  rw [hc] at hcov
  obtain ⟨_, cont, hr⟩ := hcov
  obtain ⟨h1, h2⟩ := hr s.cfg.shared.world
  cases hp : crashed s.cfg.shared.world c.target with
  | true =>
    have e : env.invoke s.cfg.shared.world c = (.panic, s.cfg.shared.world) := by rw [invoke_fine, hp]; rfl
    have st := Fine.Step.poisoned (code := code) s t f g k c cont ht hk hc hr hi hp
    rw [h1, h2, e]
    exact Fine.Reach.one st
  | false =>
    have st := Fine.Step.enter (code := code) s t f g k c cont ht hk hc hr hi hf hp
    obtain ⟨l, v, hg, r, hres⟩ := hret hp
    have hans := hb c s.cfg.shared.world.user l v r hg hres
    have e : env.invoke s.cfg.shared.world c = (r.toOutcome,
        if r = .panic then World.poison { s.cfg.shared.world with user := upd s.cfg.shared.world.user (code.obj c.target) v } c.target
        else { s.cfg.shared.world with user := upd s.cfg.shared.world.user (code.obj c.target) v }) := by
      rw [invoke_fine, hp, hans]; rfl
    have h3 := goes_reach env p { s with inside := upd s.inside t (some ⟨c, code.start c, cont, s.cfg.shared.world.user (code.obj c.target)⟩) } t
      ⟨c, code.start c, cont, s.cfg.shared.world.user (code.obj c.target)⟩ (upd_self _ _ _) hg
    have st2 := Fine.Step.leave (env := env) (p := p) _ t f
      { (⟨c, code.start c, cont, s.cfg.shared.world.user (code.obj c.target)⟩ : Inside code) with loc := l } r
      (show (Fine.at { s with inside := upd s.inside t (some ⟨c, code.start c, cont, s.cfg.shared.world.user (code.obj c.target)⟩) } t
        ⟨c, code.start c, cont, s.cfg.shared.world.user (code.obj c.target)⟩ l v).inside t = _ from upd_self _ _ _)
      ht hres
    have h := ((Fine.Reach.one st).trans h3).tail st2
    rw [h1, h2, e]
    have e2 : upd s.inside t none = s.inside := by
      have := upd_eq_self s.inside t
      rwa [hi] at this
    simp only [Fine.at, Fine.setObj, upd_upd, e2] at h
    exact h

theorem call_reach {τ} {code : Code τ} {env : Env (HandlerId → τ)} {p : Profile} {s : Fine code}
    (hb : Behaves code env) (hret : Returns code) (hC : Covered env p s.cfg) {t : Nat}
    {f : Flight (HandlerId → τ)} {g k} {c : HCall} (ht : s.cfg.flights t = some f) (hk : f.code = .commit g k)
    (hc : s.cfg.call p f = some c) (hi : s.inside t = none) (hf : s.free (code.obj c.target)) :
    Fine.Reach code env p s [.effect t f.ev] { s with cfg :=
      { s.cfg.put t (some { f with code := k s.cfg.shared.world, committed := true })
        with shared := { s.cfg.shared with world := g s.cfg.shared.world } } } :=
  call_reach' hb (fun _ => hret c _) hC ht hk hc hi hf

/-- The steps by which a connection's program gets to its handler call. -/
theorem arrive_steps {σ} (env : Env σ) (p : Profile) (s : Cfg σ) (t c : Nat)
    (wr : WriteRes) (x : Conn) (call : HCall) (hft : s.flights t = none) (hc : s.conns c = some x)
    (hr : x.status = .running) (hi : s.idle c) (hq : s.queue .used = [])
    (hnw : ∀ u g, s.flights u = some g → g.held .used ≠ some .w)
    (hcall : x.call p s.shared.used = some call) :
    ∃ f g k s2 s3, f.code = .commit g k ∧ f.owner = some c ∧ f.held .used = some .r ∧
      f.ev = .iterate c wr ∧
      Cfg.Step env p s (.start t (.iterate c wr))
        (s.put t (some (Flight.start (.iterate c wr) (some c) (iterTask env p x wr)))) ∧
      Cfg.Step env p (s.put t (some (Flight.start (.iterate c wr) (some c) (iterTask env p x wr)))) (.inner t) s2 ∧
      Cfg.Step env p s2 (.inner t) s3 ∧ Cfg.Step env p s3 (.inner t) (s.put t (some f)) ∧
      (∀ k, iterTask env p x wr ≠ .send k) ∧ (∀ f k, s2.flights t = some f → f.code ≠ .send k) ∧
      (∀ f k, s3.flights t = some f → f.code ≠ .send k) := by
  unfold Conn.call at hcall
  split at hcall
  case h_2 => simp at hcall
  rename_i h fl len sf np iv setup data iso rest hread
  cases hd : x.current.bind (fun id => amGet id s.shared.used) with
  | none => rw [hd] at hcall; simp at hcall
  | some device =>
    have htask : (iterTask env p x wr) =
        submitTask env p x rest (.submit h fl len sf np iv setup data iso) h len setup data wr := by
      unfold iterTask; rw [hread]
    -- the program is started, asks for the lock, gets it, and looks the device up
    have st1 := Cfg.Step.iterate (env := env) (p := p) s t c wr x hft hc hr hi
    have st1' := st1
    rw [htask] at st1
    unfold submitTask at st1
    generalize hK : (fun u => match x.current.bind (fun id => amGet id u) with
      | none => Task.commit id fun _ => .unlock .used <| .done (.conn (x.finish p rest
          (.submit h fl len sf np iv setup data iso) wr x.current .panic))
      | some device =>
        Task.commit (fun wd => (Shared.submit env p ⟨[], [], wd⟩ device h len setup data).2.world) fun wd =>
        .send <| .unlock .used <| .done (.conn (x.finish p rest (.submit h fl len sf np iv setup data iso) wr
          x.current (Shared.submit env p ⟨[], [], wd⟩ device h len setup data).1))) = K at st1
    have hKd : K s.shared.used = .commit
        (fun wd => (Shared.submit env p ⟨[], [], wd⟩ device h len setup data).2.world) fun wd =>
        .send <| .unlock .used <| .done (.conn (x.finish p rest (.submit h fl len sf np iv setup data iso) wr
          x.current (Shared.submit env p ⟨[], [], wd⟩ device h len setup data).1)) := by
      rw [← hK]; dsimp only; rw [hd]
    let f0 : Flight σ := Flight.start (.iterate c wr) (some c) (.lock .used .r (.getUsed K))
    have fl0 : ∀ o, (s.put t o).flights t = o := fun o => put_same _ _ _
    have st2 := Cfg.Step.request (env := env) (p := p) (s.put t (some f0)) t f0 .used .r (.getUsed K) (fl0 _)
      rfl rfl
    have e2 : ({ (s.put t (some f0)).put t (some { f0 with waiting := true }) with
        queue := upd (s.put t (some f0)).queue .used ((s.put t (some f0)).queue .used ++ [t]) } :
        Cfg σ) = { s.put t (some { f0 with waiting := true }) with
          queue := upd s.queue .used [t] } := by
      simp only [Cfg.put, upd_upd, hq, List.nil_append]
    rw [e2] at st2
    have st3 := Cfg.Step.grant (env := env) (p := p) { s.put t (some { f0 with waiting := true }) with
          queue := upd s.queue .used [t] } t { f0 with waiting := true } .used .r (.getUsed K) [] (fl0 _)
      rfl rfl (upd_self s.queue Lk.used [t]) (by
        intro u g hm hu hg
        dsimp only at hu
        by_cases e : u = t
        · subst e
          rw [fl0] at hu; cases hu
          simp [f0, Flight.start] at hg
        · rw [put_ne _ _ e] at hu
          cases hm with
          | r => rfl
          | w => exact absurd hg (hnw u g hu))
    let f3 : Flight σ := { f0 with code := .getUsed K, waiting := false, held := upd f0.held .used (some .r) }
    have e3 : ({ ({ s.put t (some { f0 with waiting := true }) with
          queue := upd s.queue .used [t] } : Cfg σ).put t (some f3) with
          queue := upd (upd s.queue .used [t]) .used [] } : Cfg σ) = s.put t (some f3) := by
      have := upd_eq_self s.queue .used
      rw [hq] at this
      simp only [Cfg.put, upd_upd, this]
    have st3' : Cfg.Step env p _ (.inner t) (s.put t (some f3)) := e3 ▸ st3
    have st4 := Cfg.Step.getUsed (env := env) (p := p) (s.put t (some f3)) t f3 K (fl0 _) rfl
    have e4 : (s.put t (some f3)).put t (some { f3 with code := K (s.put t (some f3)).shared.used })
        = s.put t (some { f3 with code := K s.shared.used }) := by
      simp only [Cfg.put, upd_upd]
    rw [e4] at st4
    have hst : iterTask env p x wr = .lock .used .r (.getUsed K) := by
      rw [htask, ← hK]; rfl
    have hf0 : Flight.start (.iterate c wr) (some c) (iterTask env p x wr) = f0 := by rw [hst]
    refine ⟨{ f3 with code := K s.shared.used }, _, _, _, _, hKd, rfl, upd_self f0.held Lk.used (some Mode.r), rfl, st1',
      by rw [hf0]; exact st2, st3', st4, by rw [hst]; simp, ?_, ?_⟩
    · intro f k hf
      dsimp only at hf
      rw [fl0] at hf; cases hf; simp [f0, Flight.start]
    · intro f k hf
      rw [fl0] at hf; cases hf; simp [f3]

/-- A connection's program gets to its handler call, while others use handlers. -/
theorem arrive {τ} {code : Code τ} (env : Env (HandlerId → τ)) (p : Profile) (s : Fine code) (t c : Nat)
    (wr : WriteRes) (x : Conn) (call : HCall) (hft : s.cfg.flights t = none) (hc : s.cfg.conns c = some x)
    (hr : x.status = .running) (hi : s.cfg.idle c) (hin : s.inside t = none) (hq : s.cfg.queue .used = [])
    (hnw : ∀ u g, s.cfg.flights u = some g → g.held .used ≠ some .w)
    (hcall : x.call p s.cfg.shared.used = some call) :
    ∃ f g k ls, f.code = .commit g k ∧ f.owner = some c ∧ f.held .used = some .r ∧
      Fine.Reach code env p s ls { s with cfg := s.cfg.put t (some f) } := by
  obtain ⟨f, g, k, s2, s3, hk, ho, hh, _, st1, st2, st3, st4, _⟩ :=
    arrive_steps env p s.cfg t c wr x call hft hc hr hi hq hnw hcall
  have own : ∀ lb : Label (HandlerId → τ), prog lb = some t → ∀ u, prog lb = some u → s.inside u = none := by
    intro lb h u hu
    rw [h] at hu; cases hu; exact hin
  have o1 := Fine.Step.outer (code := code) s _ _ st1 (own _ rfl) (fun f cr e => by simp at e)
    (fun u ev f e => by simp at e)
  have o2 := Fine.Step.outer (code := code) { s with cfg := _ } _ _ st2 (own _ rfl) (fun f cr e => by simp at e)
    (fun u ev f e => by simp at e)
  have o3 := Fine.Step.outer (code := code) { s with cfg := _ } _ _ st3 (own _ rfl) (fun f cr e => by simp at e)
    (fun u ev f e => by simp at e)
  have o4 := Fine.Step.outer (code := code) { s with cfg := _ } _ _ st4 (own _ rfl) (fun f cr e => by simp at e)
    (fun u ev f e => by simp at e)
  exact ⟨f, g, k, _, hk, ho, hh, (((Fine.Reach.refl.tail o1).tail o2).tail o3).tail o4⟩

end Usbip
