import Verif.Spec.Sockets
import Verif.Lemmas.Realise
import Verif.Lemmas.Network
/-! Helper lemmas: tasks and locks on sockets that work piece by piece. -/

namespace Usbip
open Spec

theorem awaiting_awaiting (x : Conn) (m m' : Stream) :
    awaiting (awaiting x m) m' = awaiting x ⟨m.bytes ++ m'.bytes, m'.fin⟩ := by
  simp only [awaiting, List.append_assoc]

theorem awaiting_eof {x : Conn} {e : ErrKind} (h : x.input.fin = e) : awaiting x ⟨[], e⟩ = x := by
  simp only [awaiting, List.append_nil, ← h]

theorem finish_awaiting (p : Profile) (x : Conn) (rest : Stream) (cmd : Cmd) (w : WriteRes) (cur : Option Bytes)
    (r : Outcome Resp) (m : Stream) :
    (awaiting x m).finish p ⟨rest.bytes ++ m.bytes, m.fin⟩ cmd w cur r = awaiting (x.finish p rest cmd w cur r) m := by
  cases r with
  | ok resp =>
    simp only [Conn.finish]
    cases resp.toBytes p with
    | ok b => cases w <;> rfl
    | err e => rfl
    | panic => rfl
    | diverge => rfl
  | err e => rfl
  | panic => rfl
  | diverge => rfl

theorem release_hear {σ} (x : Conn) (e : ErrKind) (m : Stream) :
    (releaseTask (awaiting x m) e : Task σ) = hear m (releaseTask x e) := by
  unfold releaseTask
  dsimp only
  cases h : x.current with
  | none => simp only [show (awaiting x m).current = none from h]; rfl
  | some id' =>
    simp only [show (awaiting x m).current = some id' from h, hear]
    congr 4
    funext u
    congr 1
    funext a
    cases amGet id' a <;> rfl

theorem command_hear {σ} (env : Env σ) (p : Profile) (x : Conn) (w : WriteRes) (m : Stream) (rest : Stream) (cmd : Cmd)
    (h0 : readCommand p x.input = .ok (cmd, rest))
    (h1 : readCommand p (awaiting x m).input = .ok (cmd, ⟨rest.bytes ++ m.bytes, m.fin⟩)) :
    iterTask env p (awaiting x m) w = hear m (iterTask env p x w) := by
  unfold iterTask
  rw [h0, h1]
  cases cmd with
  | reqDevlist s => simp only [devlistTask, hear, finish_awaiting]; rfl
  | reqImport s b =>
    simp only [importTask, hear]
    congr 5
    funext _
    congr 1
    funext a
    cases takeFirst (busidCompare b) a with
    | none => simp only [hear, finish_awaiting]; rfl
    | some q => simp only [hear, finish_awaiting]; rfl
  | submit hd f len sf np iv setup data iso =>
    simp only [submitTask, hear]
    congr 2
    funext u
    simp only [show (awaiting x m).current = x.current from rfl]
    cases x.current.bind (fun id => amGet id u) with
    | none => simp only [hear, finish_awaiting]; rfl
    | some d => simp only [hear, finish_awaiting]; rfl
  | unlink hd n => simp only [unlinkTask, hear, finish_awaiting]; rfl

/-- A task that has read its command does the same whatever arrives later. -/
theorem iterTask_hear {σ} (env : Env σ) (p : Profile) (x : Conn) (w : WriteRes) (m : Stream)
    (hr : (readCommand p : Rd Arrived Cmd) ⟨x.input.bytes⟩ ≠ .diverge) :
    iterTask env p (awaiting x m) w = hear m (iterTask env p x w) := by
  have he := early_readCommand p x.input.bytes
  have hx : x.input = ⟨x.input.bytes ++ [], x.input.fin⟩ := by rw [List.append_nil]
  cases h : (readCommand p : Rd Arrived Cmd) ⟨x.input.bytes⟩ with
  | diverge => exact absurd h hr
  | ok q =>
    obtain ⟨cmd, r⟩ := q
    rw [h] at he
    have h1 := he m.bytes m.fin
    have h0 := he [] x.input.fin
    rw [← hx, List.append_nil] at h0
    exact command_hear env p x w m _ cmd h0 h1
  | err e =>
    rw [h] at he
    have h1 := he m.bytes m.fin
    have h0 := he [] x.input.fin
    rw [← hx] at h0
    unfold iterTask
    rw [show (awaiting x m).input = ⟨x.input.bytes ++ m.bytes, m.fin⟩ from rfl, h1, h0]
    exact release_hear x e m
  | panic =>
    rw [h] at he
    have h1 := he m.bytes m.fin
    have h0 := he [] x.input.fin
    rw [← hx] at h0
    unfold iterTask
    rw [show (awaiting x m).input = ⟨x.input.bytes ++ m.bytes, m.fin⟩ from rfl, h1, h0]
    rfl

/-- Nothing arrives after the end. -/
theorem iterTask_eof {σ} (env : Env σ) (p : Profile) (x : Conn) (w : WriteRes) (e : ErrKind) (h : x.input.fin = e) :
    hear ⟨[], e⟩ (iterTask env p x w) = iterTask env p x w := by
  have ha := awaiting_eof h
  cases hr : readCommand p x.input with
  | ok q =>
    obtain ⟨cmd, rest⟩ := q
    have hf := readCommand_fin hr
    have := command_hear env p x w ⟨[], e⟩ rest cmd hr (by
      rw [ha, hr, List.append_nil, ← h, ← hf])
    rw [← this, ha]
  | err e' =>
    unfold iterTask
    rw [hr]
    dsimp only
    rw [← release_hear, ha]
  | panic =>
    unfold iterTask
    rw [hr]
    simp only [hear, hearEnd]
    rw [show awaiting { x with status := .panicked } ⟨[], e⟩ = { x with status := .panicked } from awaiting_eof h]
  | diverge =>
    unfold iterTask
    rw [hr]
    simp only [hear, hearEnd]
    rw [show awaiting { x with status := .panicked } ⟨[], e⟩ = { x with status := .panicked } from awaiting_eof h]

/-! ## Steps -/

/-- The code of a flight, seen with what arrives later. -/
def hearCode {σ} (m : Nat → Stream) (o : Option Nat) (k : Task σ) : Task σ :=
  match o with
  | none => k
  | some c => hear (m c) k

theorem hearFlight_eq {σ} (m : Nat → Stream) (f : Flight σ) :
    hearFlight m f = { f with code := hearCode m f.owner f.code } := by
  obtain ⟨ev, o, k, h, w, c⟩ := f
  cases o <;> rfl

theorem hearing_flight {σ} {m : Nat → Stream} {s : Cfg σ} {t : Nat} {f : Flight σ} (h : s.flights t = some f) :
    (hearing m s).flights t = some { f with code := hearCode m f.owner f.code } := by
  simp [hearing, h, hearFlight_eq]

theorem hearing_none {σ} {m : Nat → Stream} {s : Cfg σ} {t : Nat} (h : s.flights t = none) :
    (hearing m s).flights t = none := by
  simp [hearing, h]

theorem hearing_flight_inv {σ} {m : Nat → Stream} {s : Cfg σ} {t : Nat} {g : Flight σ}
    (h : (hearing m s).flights t = some g) :
    ∃ f, s.flights t = some f ∧ g = { f with code := hearCode m f.owner f.code } := by
  simp only [hearing, Option.map_eq_some_iff] at h
  obtain ⟨f, hf, rfl⟩ := h
  exact ⟨f, hf, hearFlight_eq m f⟩

theorem hearing_put {σ} (m : Nat → Stream) (s : Cfg σ) (t : Nat) (f : Flight σ) :
    hearing m (s.put t (some f)) = (hearing m s).put t (some { f with code := hearCode m f.owner f.code }) := by
  simp only [hearing, Cfg.put, ← hearFlight_eq]
  congr 1
  funext u
  by_cases e : u = t
  · subst e; simp [upd_self]
  · simp [upd_ne _ _ e]

theorem hearing_put_none {σ} (m : Nat → Stream) (s : Cfg σ) (t : Nat) :
    hearing m (s.put t none) = (hearing m s).put t none := by
  simp only [hearing, Cfg.put]
  congr 1
  funext u
  by_cases e : u = t
  · subst e; simp [upd_self]
  · simp [upd_ne _ _ e]

theorem hearing_idle {σ} {m : Nat → Stream} {s : Cfg σ} {c : Nat} : (hearing m s).idle c ↔ s.idle c := by
  constructor
  · intro h t f hf ho
    exact h t _ (hearing_flight hf) ho
  · intro h t g hg ho
    obtain ⟨f, hf, rfl⟩ := hearing_flight_inv hg
    exact h t f hf ho

theorem hearing_setConn {σ} (m : Nat → Stream) (s : Cfg σ) (c : Nat) (x : Conn) :
    hearing m { s with conns := setConn s.conns c x }
      = { hearing m s with conns := setConn (hearing m s).conns c (awaiting x (m c)) } := by
  simp only [hearing]
  congr 1
  funext c'
  by_cases e : c' = c
  · subst e; simp [setConn]
  · simp [setConn, e]

/-- Steps of programs are the same whatever arrives later. -/
theorem hearing_step {σ} {env : Env σ} {p : Profile} {s s' : Cfg σ} {lb : Label σ} (m : Nat → Stream)
    (st : Cfg.Step env p s lb s') (h1 : ∀ c i, lb ≠ .outside (.connect c i))
    (h2 : ∀ t c w, lb ≠ .start t (.iterate c w)) : Cfg.Step env p (hearing m s) lb (hearing m s') := by
  cases st with
  | connect c input hc => exact absurd rfl (h1 _ _)
  | user f crash => exact .user (hearing m s) f crash
  | iterate t c w x ht hc hr hi => exact absurd rfl (h2 _ _ _)
  | add t d ht =>
    rw [hearing_put]
    exact .add _ t d (hearing_none ht)
  | remove t i ht =>
    rw [hearing_put]
    exact .remove _ t i (hearing_none ht)
  | request t f l md k ht hk hw =>
    have := Cfg.Step.request (env := env) (p := p) (hearing m s) t _ l md (hearCode m f.owner k) (hearing_flight ht)
      (by simp only [hk]; cases f.owner <;> rfl) hw
    rw [show hearing m { s.put t (some { f with waiting := true }) with queue := upd s.queue l (s.queue l ++ [t]) }
      = { hearing m (s.put t (some { f with waiting := true })) with queue := upd s.queue l (s.queue l ++ [t]) } from rfl,
      hearing_put]
    exact this
  | grant t f l md k q ht hk hw hq hc =>
    have := Cfg.Step.grant (env := env) (p := p) (hearing m s) t _ l md (hearCode m f.owner k) q (hearing_flight ht)
      (by simp only [hk]; cases f.owner <;> rfl) hw hq (fun u g h hu hg => by
        obtain ⟨f', hf', rfl⟩ := hearing_flight_inv hu
        exact hc u f' h hf' hg)
    rw [show hearing m { s.put t (some { f with code := k, waiting := false, held := upd f.held l (some md) })
        with queue := upd s.queue l q }
      = { hearing m (s.put t (some { f with code := k, waiting := false, held := upd f.held l (some md) }))
        with queue := upd s.queue l q } from rfl, hearing_put]
    exact this
  | unlock t f l k ht hk =>
    rw [hearing_put]
    exact .unlock _ t _ l (hearCode m f.owner k) (hearing_flight ht) (by simp only [hk]; cases f.owner <;> rfl)
  | getUsed t f k ht hk =>
    have := Cfg.Step.getUsed (env := env) (p := p) (hearing m s) t _ (fun v => hearCode m f.owner (k v)) (hearing_flight ht)
      (by simp only [hk]; cases f.owner <;> rfl)
    rw [hearing_put]
    exact this
  | getAvail t f k ht hk =>
    have := Cfg.Step.getAvail (env := env) (p := p) (hearing m s) t _ (fun v => hearCode m f.owner (k v)) (hearing_flight ht)
      (by simp only [hk]; cases f.owner <;> rfl)
    rw [hearing_put]
    exact this
  | putUsed t f v k ht hk =>
    have := Cfg.Step.putUsed (env := env) (p := p) (hearing m s) t _ v (hearCode m f.owner k) (hearing_flight ht)
      (by simp only [hk]; cases f.owner <;> rfl)
    rw [show hearing m { s.put t (some { f with code := k }) with shared := { s.shared with used := v } }
      = { hearing m (s.put t (some { f with code := k })) with shared := { s.shared with used := v } } from rfl, hearing_put]
    exact this
  | putAvail t f v k ht hk =>
    have := Cfg.Step.putAvail (env := env) (p := p) (hearing m s) t _ v (hearCode m f.owner k) (hearing_flight ht)
      (by simp only [hk]; cases f.owner <;> rfl)
    rw [show hearing m { s.put t (some { f with code := k }) with shared := { s.shared with available := v } }
      = { hearing m (s.put t (some { f with code := k })) with shared := { s.shared with available := v } } from rfl, hearing_put]
    exact this
  | commit t f g k ht hk =>
    have := Cfg.Step.commit (env := env) (p := p) (hearing m s) t _ g (fun w => hearCode m f.owner (k w)) (hearing_flight ht)
      (by simp only [hk]; cases f.owner <;> rfl)
    rw [show hearing m { s.put t (some { f with code := k s.shared.world, committed := true })
        with shared := { s.shared with world := g s.shared.world } }
      = { hearing m (s.put t (some { f with code := k s.shared.world, committed := true }))
        with shared := { s.shared with world := g s.shared.world } } from rfl, hearing_put]
    exact this
  | send t f k ht hk =>
    have := Cfg.Step.send (env := env) (p := p) (hearing m s) t _ (hearCode m f.owner k) (hearing_flight ht)
      (by simp only [hk]; cases f.owner <;> rfl)
    rw [hearing_put]
    exact this
  | finish t f x ht hk =>
    cases ho : f.owner with
    | none =>
      have := Cfg.Step.finish (env := env) (p := p) (hearing m s) t _ x (hearing_flight ht)
        (by simp only [hk, ho]; rfl)
      simp only [ho] at this
      rw [show hearing m { s.put t none with conns := finished s.conns none x } = hearing m (s.put t none) from rfl,
        hearing_put_none]
      exact this
    | some c =>
      have := Cfg.Step.finish (env := env) (p := p) (hearing m s) t _ (hearEnd (m c) x) (hearing_flight ht)
        (by simp only [hk, ho]; rfl)
      simp only [ho] at this
      cases x with
      | call r =>
        rw [show hearing m { s.put t none with conns := finished s.conns (some c) (.call r) } = hearing m (s.put t none) from rfl,
          hearing_put_none]
        exact this
      | conn y =>
        rw [show hearing m { s.put t none with conns := finished s.conns (some c) (.conn y) }
          = hearing m { s.put t none with conns := setConn (s.put t none).conns c y } from rfl, hearing_setConn, hearing_put_none]
        exact this
  | abandon t f ht hc =>
    have := Cfg.Step.abandon (env := env) (p := p) (hearing m s) t _ (hearing_flight ht) hc
    rw [show hearing m { s.put t none with
        queue := fun l => (s.queue l).filter (fun u => u ≠ t), conns := dropped s.conns f.owner }
      = { hearing m { s.put t none with conns := dropped s.conns f.owner } with
        queue := fun l => (s.queue l).filter (fun u => u ≠ t) } from rfl]
    cases ho : f.owner with
    | none =>
      simp only [ho] at this
      rw [show hearing m { s.put t none with conns := dropped s.conns none } = hearing m (s.put t none) from rfl,
        hearing_put_none]
      exact this
    | some c =>
      simp only [ho] at this
      cases hx : s.conns c with
      | none =>
        rw [show ({ s.put t none with conns := dropped s.conns (some c) } : Cfg σ) = s.put t none from by
          simp only [dropped, hx]; rfl, hearing_put_none]
        rw [show dropped (hearing m s).conns (some c) = (hearing m s).conns from by
          simp only [dropped, hearing, hx, Option.map_none]] at this
        exact this
      | some y =>
        rw [show ({ s.put t none with conns := dropped s.conns (some c) } : Cfg σ)
          = { s.put t none with conns := setConn (s.put t none).conns c { y with status := .cancelled } } from by
          simp only [dropped, hx]; rfl, hearing_setConn, hearing_put_none]
        rw [show dropped (hearing m s).conns (some c)
          = setConn (hearing m s).conns c (awaiting { y with status := .cancelled } (m c)) from by
          simp only [dropped, hearing, hx, Option.map_some]; rfl] at this
        exact this
  | cancel c x hc hr hi =>
    rw [hearing_setConn]
    exact .cancel _ c (awaiting x (m c)) (by simp [hearing, hc]) hr (hearing_idle.mpr hi)

/-! ## What becomes of flights and connections in a step -/

theorem finished_ne {conns : Nat → Option Conn} {o : Option Nat} {x : Ended} {c : Nat} (h : o ≠ some c) :
    finished conns o x c = conns c := by
  cases o with
  | none => rfl
  | some c' =>
    cases x with
    | call r => rfl
    | conn y =>
      have : c ≠ c' := by rintro rfl; exact h rfl
      simp [finished, setConn, this]

theorem dropped_ne {conns : Nat → Option Conn} {o : Option Nat} {c : Nat} (h : o ≠ some c) :
    dropped conns o c = conns c := by
  cases o with
  | none => rfl
  | some c' =>
    have : c ≠ c' := by rintro rfl; exact h rfl
    cases hx : conns c' with
    | none => simp only [dropped, hx]
    | some y => simp [dropped, hx, setConn, this]

/-- Every program of a connection in the new configuration was there before, and its connection is
as it was. -/
theorem step_flight {σ} {env : Env σ} {p : Profile} {s s' : Cfg σ} {lb : Label σ}
    (ho : ∀ t u f g c, s.flights t = some f → s.flights u = some g → f.owner = some c → g.owner = some c → t = u)
    (st : Cfg.Step env p s lb s') (h1 : ∀ c i, lb ≠ .outside (.connect c i))
    (h2 : ∀ t c w, lb ≠ .start t (.iterate c w)) (t : Nat) (g : Flight σ) (c : Nat)
    (hg : s'.flights t = some g) (hc : g.owner = some c) :
    ∃ f, s.flights t = some f ∧ f.owner = some c ∧ (f.committed = true → g.committed = true) ∧ s'.conns c = s.conns c := by
  have old : ∀ {u : Nat} {f f' : Flight σ}, s.flights u = some f → f'.owner = f.owner →
      (f.committed = true → f'.committed = true) → upd s.flights u (some f') t = some g →
      ∃ f, s.flights t = some f ∧ f.owner = some c ∧ (f.committed = true → g.committed = true) := by
    intro u f f' hu hw hcm h
    by_cases e : t = u
    · subst e; rw [upd_self] at h; cases h; exact ⟨f, hu, hw ▸ hc, hcm⟩
    · rw [upd_ne _ _ e] at h; exact ⟨g, h, hc, id⟩
  have gone : ∀ {u : Nat} {f : Flight σ}, s.flights u = some f → upd s.flights u none t = some g →
      s.flights t = some g ∧ f.owner ≠ some c := by
    intro u f hu h
    by_cases e : t = u
    · subst e; rw [upd_self] at h; simp at h
    · rw [upd_ne _ _ e] at h
      exact ⟨h, fun hf => e (ho t u g f c h hu hc hf)⟩
  have put : ∀ {u : Nat} {f f' : Flight σ}, s.flights u = some f → f'.owner = f.owner →
      (f.committed = true → f'.committed = true) → upd s.flights u (some f') t = some g → s'.conns = s.conns →
      ∃ f, s.flights t = some f ∧ f.owner = some c ∧ (f.committed = true → g.committed = true) ∧ s'.conns c = s.conns c := by
    intro u f f' hu hw hcm h hcs
    obtain ⟨f1, a, b, d⟩ := old hu hw hcm h
    exact ⟨f1, a, b, d, by rw [hcs]⟩
  cases st with
  | connect c input hc => exact absurd rfl (h1 _ _)
  | user f => exact ⟨g, hg, hc, id, rfl⟩
  | iterate t c w x ht hc hr hi => exact absurd rfl (h2 _ _ _)
  | add u d ht =>
    by_cases e : t = u
    · subst e; simp only [Cfg.put, upd_self] at hg; cases hg; simp [Flight.start] at hc
    · simp only [Cfg.put, upd_ne _ _ e] at hg; exact ⟨g, hg, hc, id, rfl⟩
  | remove u d ht =>
    by_cases e : t = u
    · subst e; simp only [Cfg.put, upd_self] at hg; cases hg; simp [Flight.start] at hc
    · simp only [Cfg.put, upd_ne _ _ e] at hg; exact ⟨g, hg, hc, id, rfl⟩
  | request u f l md k ht hk hw => exact put ht (f' := { f with waiting := true }) rfl id hg rfl
  | grant u f l md k q ht hk hw hq hcc =>
    exact put ht (f' := { f with code := k, waiting := false, held := upd f.held l (some md) }) rfl id hg rfl
  | unlock u f l k ht hk => exact put ht (f' := { f with code := k, held := upd f.held l none }) rfl id hg rfl
  | getUsed u f k ht hk => exact put ht (f' := { f with code := k s.shared.used }) rfl id hg rfl
  | getAvail u f k ht hk => exact put ht (f' := { f with code := k s.shared.available }) rfl id hg rfl
  | putUsed u f v k ht hk => exact put ht (f' := { f with code := k }) rfl id hg rfl
  | putAvail u f v k ht hk => exact put ht (f' := { f with code := k }) rfl id hg rfl
  | commit u f fn k ht hk =>
    exact put ht (f' := { f with code := k s.shared.world, committed := true }) rfl (fun _ => rfl) hg rfl
  | send u f k ht hk => exact put ht (f' := { f with code := k }) rfl id hg rfl
  | finish u f x ht hk =>
    obtain ⟨a, b⟩ := gone ht hg
    exact ⟨g, a, hc, id, finished_ne b⟩
  | abandon u f ht hcm =>
    obtain ⟨a, b⟩ := gone ht hg
    exact ⟨g, a, hc, id, dropped_ne b⟩
  | cancel c' x hx hr hi =>
    refine ⟨g, hg, hc, id, ?_⟩
    have : c ≠ c' := by rintro rfl; exact hi t g hg hc
    simp [setConn, this]

/-! ## The replies -/

/-- The bytes a connection has sent. -/
def outOf (x : Option Conn) : Bytes :=
  match x with
  | none => []
  | some y => y.output

/-- A program whose connection's client has received `o`: what it leaves is what its client has
received by then.  A program of no connection (`none`) sends nothing. -/
def Task.Out {σ} : Task σ → Option Bytes → Prop
  | .done x, o => match o with
    | none => True
    | some o => ∃ y, x = .conn y ∧ y.output = o
  | .lock _ _ k, o => k.Out o
  | .unlock _ k, o => k.Out o
  | .getUsed k, o => ∀ v, (k v).Out o
  | .getAvail k, o => ∀ v, (k v).Out o
  | .putUsed _ k, o => k.Out o
  | .putAvail _ k, o => k.Out o
  | .commit _ k, o => ∀ w, (k w).Out o
  | .send k, o => match o with
    | none => False
    | some o => ∃ y, k.final = some y ∧ o <+: y.output ∧ k.Out (some y.output)

theorem finish_prefix (p : Profile) (x : Conn) (rest : Stream) (cmd : Cmd) (w : WriteRes) (cur : Option Bytes)
    (r : Outcome Resp) : x.output <+: (x.finish p rest cmd w cur r).output := by
  cases r with
  | ok resp =>
    simp only [Conn.finish]
    cases resp.toBytes p with
    | ok b => cases w <;> exact List.prefix_append _ _
    | err e => exact List.prefix_rfl
    | panic => exact List.prefix_rfl
    | diverge => exact List.prefix_rfl
  | err e => exact List.prefix_rfl
  | panic => exact List.prefix_rfl
  | diverge => exact List.prefix_rfl

theorem iterTask_Out {σ} (env : Env σ) (p : Profile) (x : Conn) (w : WriteRes) :
    (iterTask env p x w).Out (some x.output) := by
  unfold iterTask
  split
  · intro _ a
    exact ⟨_, rfl, finish_prefix .., _, rfl, rfl⟩
  · rename_i b _ _
    intro _ a
    dsimp only
    cases takeFirst (busidCompare b) a with
    | none => exact ⟨_, rfl, finish_prefix .., _, rfl, rfl⟩
    | some q => intro u; exact ⟨_, rfl, finish_prefix .., _, rfl, rfl⟩
  · intro u
    dsimp only
    cases x.current.bind (fun id => amGet id u) with
    | none => intro _; exact ⟨_, rfl, rfl⟩
    | some d => intro wd; exact ⟨_, rfl, finish_prefix .., _, rfl, rfl⟩
  · intro _
    exact ⟨_, rfl, finish_prefix .., _, rfl, rfl⟩
  · unfold releaseTask
    dsimp only
    cases x.current with
    | none => intro _; exact ⟨_, rfl, rfl⟩
    | some id' =>
      intro _ u
      dsimp only
      cases amGet id' u with
      | none => exact ⟨_, rfl, rfl⟩
      | some d => intro a; exact ⟨_, rfl, rfl⟩
  · intro _
    exact ⟨_, rfl, rfl⟩

theorem addTask_Out {σ} (d : Device) : (addTask d : Task σ).Out none := by
  intro _ a; exact trivial

theorem removeTask_Out {σ} (i : Bytes) : (removeTask i : Task σ).Out none := by
  intro a
  dsimp only
  cases takeFirst i a with
  | none => intro _ _; exact trivial
  | some q => intro _; exact trivial

theorem Out_exec {σ} (k : Task σ) : ∀ (o : Bytes) (sh : Shared σ), k.Out (some o) →
    ∃ y, (k.exec sh).2 = .conn y ∧ o <+: y.output := by
  induction k with
  | done x => rintro o sh ⟨y, rfl, rfl⟩; exact ⟨y, rfl, List.prefix_rfl⟩
  | lock l m k ih => intro o sh h; exact ih o sh h
  | unlock l k ih => intro o sh h; exact ih o sh h
  | getUsed k ih => intro o sh h; exact ih _ o sh (h _)
  | getAvail k ih => intro o sh h; exact ih _ o sh (h _)
  | putUsed v k ih => intro o sh h; exact ih o _ h
  | putAvail v k ih => intro o sh h; exact ih o _ h
  | commit f k ih => intro o sh h; exact ih _ o _ (h _)
  | send k ih =>
    rintro o sh ⟨y, _, hp, h⟩
    obtain ⟨z, hz, hp'⟩ := ih _ sh h
    exact ⟨z, hz, hp.trans hp'⟩

theorem hear_exec {σ} (m : Stream) (k : Task σ) : ∀ sh : Shared σ,
    (hear m k).exec sh = ((k.exec sh).1, hearEnd m (k.exec sh).2) := by
  induction k with
  | done x => intro sh; rfl
  | lock l m k ih => intro sh; exact ih sh
  | unlock l k ih => intro sh; exact ih sh
  | getUsed k ih => intro sh; exact ih _ sh
  | getAvail k ih => intro sh; exact ih _ sh
  | putUsed v k ih => intro sh; exact ih _
  | putAvail v k ih => intro sh; exact ih _
  | commit f k ih => intro sh; exact ih _ _
  | send k ih => intro sh; exact ih sh

/-- A step that is not a send, or a start, leaves the programs with the same bytes received. -/
theorem step_out {σ} {env : Env σ} {p : Profile} {s s' : Cfg σ} {lb : Label σ}
    (st : Cfg.Step env p s lb s') (h2 : ∀ t c w, lb ≠ .start t (.iterate c w))
    (h3 : ∀ t f k, lb = .inner t → s.flights t = some f → f.code ≠ .send k) (t : Nat) (f g : Flight σ)
    (hf : s.flights t = some f) (hg : s'.flights t = some g) (o : Option Bytes) (h : f.code.Out o) : g.code.Out o := by
  have keep : s'.flights t = s.flights t → g.code.Out o := by
    intro e; rw [hg, hf] at e; cases e; exact h
  have put : ∀ {u : Nat} {f0 f' : Flight σ}, s.flights u = some f0 → s'.flights = upd s.flights u (some f') →
      (f0.code.Out o → f'.code.Out o) → g.code.Out o := by
    intro u f0 f' hu hs hh
    by_cases e : t = u
    · subst e
      rw [hs, upd_self] at hg
      cases hg
      rw [hf] at hu
      cases hu
      exact hh h
    · exact keep (by rw [hs, upd_ne _ _ e])
  have gone : ∀ {u : Nat}, s'.flights = upd s.flights u none → g.code.Out o := by
    intro u hs
    by_cases e : t = u
    · subst e; rw [hs, upd_self] at hg; simp at hg
    · exact keep (by rw [hs, upd_ne _ _ e])
  have new : ∀ {u : Nat} {f' : Flight σ}, s.flights u = none → s'.flights = upd s.flights u (some f') → g.code.Out o := by
    intro u f' hu hs
    by_cases e : t = u
    · subst e; rw [hf] at hu; simp at hu
    · exact keep (by rw [hs, upd_ne _ _ e])
  cases st with
  | connect c input hc => exact keep rfl
  | user f => exact keep rfl
  | iterate t c w x ht hc hr hi => exact absurd rfl (h2 _ _ _)
  | add u d ht => exact new ht rfl
  | remove u d ht => exact new ht rfl
  | request u f l md k ht hk hw => exact put ht rfl id
  | grant u f l md k q ht hk hw hq hcc => exact put ht rfl (by rw [hk]; exact id)
  | unlock u f l k ht hk => exact put ht rfl (by rw [hk]; exact id)
  | getUsed u f k ht hk => exact put ht rfl (by rw [hk]; exact fun h => h _)
  | getAvail u f k ht hk => exact put ht rfl (by rw [hk]; exact fun h => h _)
  | putUsed u f v k ht hk => exact put ht rfl (by rw [hk]; exact id)
  | putAvail u f v k ht hk => exact put ht rfl (by rw [hk]; exact id)
  | commit u f fn k ht hk => exact put ht rfl (by rw [hk]; exact fun h => h _)
  | send u f k ht hk => exact absurd hk (h3 u f k rfl ht)
  | finish u f x ht hk => exact gone rfl
  | abandon u f ht hcm => exact gone rfl
  | cancel c' x hx hr hi => exact keep rfl

/-- A program that starts and is not an iteration. -/
theorem step_new {σ} {env : Env σ} {p : Profile} {s s' : Cfg σ} {lb : Label σ}
    (st : Cfg.Step env p s lb s') (h2 : ∀ t c w, lb ≠ .start t (.iterate c w)) (t : Nat) (g : Flight σ)
    (hf : s.flights t = none) (hg : s'.flights t = some g) : g.owner = none ∧ g.code.Out none := by
  have keep : s'.flights t = s.flights t → False := by
    intro e; rw [hg, hf] at e; simp at e
  have put : ∀ {u : Nat} {f0 : Flight σ} {f' : Option (Flight σ)}, s.flights u = some f0 →
      s'.flights = upd s.flights u f' → False := by
    intro u f0 f' hu hs
    by_cases e : t = u
    · subst e; rw [hf] at hu; simp at hu
    · exact keep (by rw [hs, upd_ne _ _ e])
  cases st with
  | connect c input hc => exact absurd rfl keep
  | user f => exact absurd rfl keep
  | iterate t c w x ht hc hr hi => exact absurd rfl (h2 _ _ _)
  | add u d ht =>
    by_cases e : t = u
    · subst e; simp only [Cfg.put, upd_self] at hg; cases hg; exact ⟨rfl, addTask_Out d⟩
    · exact absurd (by simp only [Cfg.put, upd_ne _ _ e]) keep
  | remove u d ht =>
    by_cases e : t = u
    · subst e; simp only [Cfg.put, upd_self] at hg; cases hg; exact ⟨rfl, removeTask_Out d⟩
    · exact absurd (by simp only [Cfg.put, upd_ne _ _ e]) keep
  | request u f l md k ht hk hw => exact (put ht rfl).elim
  | grant u f l md k q ht hk hw hq hcc => exact (put ht rfl).elim
  | unlock u f l k ht hk => exact (put ht rfl).elim
  | getUsed u f k ht hk => exact (put ht rfl).elim
  | getAvail u f k ht hk => exact (put ht rfl).elim
  | putUsed u f v k ht hk => exact (put ht rfl).elim
  | putAvail u f v k ht hk => exact (put ht rfl).elim
  | commit u f fn k ht hk => exact (put ht rfl).elim
  | send u f k ht hk => exact (put ht rfl).elim
  | finish u f x ht hk => exact (put ht rfl).elim
  | abandon u f ht hcm => exact (put ht rfl).elim
  | cancel c' x hx hr hi => exact absurd rfl keep

/-- A program keeps its owner. -/
theorem step_owner {σ} {env : Env σ} {p : Profile} {s s' : Cfg σ} {lb : Label σ}
    (st : Cfg.Step env p s lb s') (t : Nat) (f g : Flight σ) (hf : s.flights t = some f)
    (hg : s'.flights t = some g) : g.owner = f.owner := by
  have keep : s'.flights t = s.flights t → g.owner = f.owner := by
    intro e; rw [hg, hf] at e; cases e; rfl
  have put : ∀ {u : Nat} {f0 f' : Flight σ}, s.flights u = some f0 → s'.flights = upd s.flights u (some f') →
      f'.owner = f0.owner → g.owner = f.owner := by
    intro u f0 f' hu hs hh
    by_cases e : t = u
    · subst e
      rw [hs, upd_self] at hg
      cases hg
      rw [hf] at hu
      cases hu
      exact hh
    · exact keep (by rw [hs, upd_ne _ _ e])
  have gone : ∀ {u : Nat}, s'.flights = upd s.flights u none → g.owner = f.owner := by
    intro u hs
    by_cases e : t = u
    · subst e; rw [hs, upd_self] at hg; simp at hg
    · exact keep (by rw [hs, upd_ne _ _ e])
  have new : ∀ {u : Nat} {f' : Flight σ}, s.flights u = none → s'.flights = upd s.flights u (some f') →
      g.owner = f.owner := by
    intro u f' hu hs
    by_cases e : t = u
    · subst e; rw [hf] at hu; simp at hu
    · exact keep (by rw [hs, upd_ne _ _ e])
  cases st with
  | connect c input hc => exact keep rfl
  | user f => exact keep rfl
  | iterate u c w x ht hc hr hi => exact new ht rfl
  | add u d ht => exact new ht rfl
  | remove u d ht => exact new ht rfl
  | request u f l md k ht hk hw => exact put ht rfl rfl
  | grant u f l md k q ht hk hw hq hcc => exact put ht rfl rfl
  | unlock u f l k ht hk => exact put ht rfl rfl
  | getUsed u f k ht hk => exact put ht rfl rfl
  | getAvail u f k ht hk => exact put ht rfl rfl
  | putUsed u f v k ht hk => exact put ht rfl rfl
  | putAvail u f v k ht hk => exact put ht rfl rfl
  | commit u f fn k ht hk => exact put ht rfl rfl
  | send u f k ht hk => exact put ht rfl rfl
  | finish u f x ht hk => exact gone rfl
  | abandon u f ht hcm => exact gone rfl
  | cancel c' x hx hr hi => exact keep rfl

/-- A connection without a program after a step: it had none before and has sent the same, or its
program has ended, or was dropped. -/
theorem step_idle {σ} {env : Env σ} {p : Profile} {s s' : Cfg σ} {lb : Label σ}
    (st : Cfg.Step env p s lb s') (h1 : ∀ c i, lb ≠ .outside (.connect c i)) (c : Nat) (hi : s'.idle c) :
    (s.idle c ∧ outOf (s'.conns c) = outOf (s.conns c)) ∨
    ∃ t f, s.flights t = some f ∧ f.owner = some c ∧
      ((∃ y, f.code = .done (.conn y) ∧ s'.conns c = some y) ∨ (∃ r, f.code = .done (.call r)) ∨
       (f.committed = false ∧ outOf (s'.conns c) = outOf (s.conns c))) := by
  have put : ∀ {u : Nat} {f f' : Flight σ}, s.flights u = some f → s'.flights = upd s.flights u (some f') →
      f'.owner = f.owner → s.idle c := by
    intro u f f' hu hs ho t g hg hc
    by_cases e : t = u
    · subst e
      rw [hu] at hg; cases hg
      exact hi t f' (by rw [hs, upd_self]) (ho.trans hc)
    · exact hi t g (by rw [hs, upd_ne _ _ e]; exact hg) hc
  have new : ∀ {u : Nat} {f' : Flight σ}, s.flights u = none → s'.flights = upd s.flights u (some f') → s.idle c := by
    intro u f' hu hs t g hg hc
    by_cases e : t = u
    · subst e; rw [hu] at hg; simp at hg
    · exact hi t g (by rw [hs, upd_ne _ _ e]; exact hg) hc
  have gone : ∀ {u : Nat} {f : Flight σ}, s.flights u = some f → s'.flights = upd s.flights u none →
      f.owner ≠ some c → s.idle c := by
    intro u f hu hs hn t g hg hc
    by_cases e : t = u
    · subst e; rw [hu] at hg; cases hg; exact hn hc
    · exact hi t g (by rw [hs, upd_ne _ _ e]; exact hg) hc
  cases st with
  | connect c input hc => exact absurd rfl (h1 _ _)
  | user f => exact .inl ⟨hi, rfl⟩
  | iterate u c' w x ht hc hr hi' => exact .inl ⟨new ht rfl, rfl⟩
  | add u d ht => exact .inl ⟨new ht rfl, rfl⟩
  | remove u d ht => exact .inl ⟨new ht rfl, rfl⟩
  | request u f l md k ht hk hw => exact .inl ⟨put ht (f' := { f with waiting := true }) rfl rfl, rfl⟩
  | grant u f l md k q ht hk hw hq hcc =>
    exact .inl ⟨put ht (f' := { f with code := k, waiting := false, held := upd f.held l (some md) }) rfl rfl, rfl⟩
  | unlock u f l k ht hk => exact .inl ⟨put ht (f' := { f with code := k, held := upd f.held l none }) rfl rfl, rfl⟩
  | getUsed u f k ht hk => exact .inl ⟨put ht (f' := { f with code := k s.shared.used }) rfl rfl, rfl⟩
  | getAvail u f k ht hk => exact .inl ⟨put ht (f' := { f with code := k s.shared.available }) rfl rfl, rfl⟩
  | putUsed u f v k ht hk => exact .inl ⟨put ht (f' := { f with code := k }) rfl rfl, rfl⟩
  | putAvail u f v k ht hk => exact .inl ⟨put ht (f' := { f with code := k }) rfl rfl, rfl⟩
  | commit u f fn k ht hk =>
    exact .inl ⟨put ht (f' := { f with code := k s.shared.world, committed := true }) rfl rfl, rfl⟩
  | send u f k ht hk => exact .inl ⟨put ht (f' := { f with code := k }) rfl rfl, rfl⟩
  | finish u f x ht hk =>
    by_cases ho : f.owner = some c
    · refine .inr ⟨u, f, ht, ho, ?_⟩
      cases x with
      | call r => exact .inr (.inl ⟨r, hk⟩)
      | conn y => exact .inl ⟨y, hk, by simp [finished, ho, setConn]⟩
    · exact .inl ⟨gone ht rfl ho, congrArg outOf (finished_ne ho)⟩
  | abandon u f ht hcm =>
    by_cases ho : f.owner = some c
    · refine .inr ⟨u, f, ht, ho, .inr (.inr ⟨hcm, ?_⟩)⟩
      simp only [dropped, ho]
      cases hx : s.conns c with
      | none => simp [hx]
      | some y => simp [setConn, outOf]
    · exact .inl ⟨gone ht rfl ho, congrArg outOf (dropped_ne ho)⟩
  | cancel c' x hx hr hi' =>
    refine .inl ⟨hi, ?_⟩
    by_cases e : c = c'
    · subst e; simp [setConn, hx, outOf]
    · simp [setConn, e]

end Usbip
