import Verif.Spec.Attended
import Verif.Lemmas.DriverLive
import Verif.Lemmas.Hosted
import Verif.Lemmas.Isolation
/-! Helper lemmas: the life of a handler object that one client has for itself. -/

namespace Usbip
open Spec

/-! ## The object on its own -/

/-- What happens to a handler object: the application acts on it, or a request reaches it. -/
inductive Deed (α κ : Type) where
  | app (a : α)
  | urb (k : κ)

/-- The state of an object after some operations. -/
def objNext {α β κ : Type} (obj : κ → β → HRes × β) (act : α → β → β) (b : β) (ops : List (Deed α κ)) : β :=
  ops.foldl (fun b op => match op with | .app a => act a b | .urb k => (obj k b).2) b

/-- Its answers. -/
def objAnswers {α β κ ι : Type} (obj : κ → β → HRes × β) (tag : κ → ι) (act : α → β → β) : β → List (Deed α κ) →
    List (ι × HRes)
  | _, [] => []
  | b, .app a :: ops => objAnswers obj tag act (act a b) ops
  | b, .urb k :: ops => (tag k, (obj k b).1) :: objAnswers obj tag act (obj k b).2 ops

/-- What the application has done. -/
def appsOf {α κ : Type} (ops : List (Deed α κ)) : List α :=
  ops.filterMap (fun | .app a => some a | .urb _ => none)

section
variable {α β κ ι : Type} (tag : κ → ι) (obj : κ → β → HRes × β) (act : α → β → β)

theorem objNext_append (b : β) (l m : List (Deed α κ)) : objNext obj act b (l ++ m) = objNext obj act (objNext obj act b l) m := by
  simp [objNext]

theorem objNext_apps (l : List α) : ∀ b, objNext obj act b (l.map .app) = l.foldl (fun b x => act x b) b := by
  induction l with
  | nil => intro b; rfl
  | cons a l ih => intro b; exact ih _

theorem objAnswers_append (l m : List (Deed α κ)) : ∀ b, objAnswers obj tag act b (l ++ m) =
    objAnswers obj tag act b l ++ objAnswers obj tag act (objNext obj act b l) m := by
  induction l with
  | nil => intro b; rfl
  | cons op l ih =>
    intro b
    cases op with
    | app a => exact ih _
    | urb k => simp only [List.cons_append, objAnswers, ih]; rfl

theorem objAnswers_apps (l : List α) : ∀ b, objAnswers obj tag act b (l.map .app) = [] := by
  induction l with
  | nil => intro b; rfl
  | cons a l ih => intro b; exact ih _

theorem appsOf_append {α κ : Type} (l m : List (Deed α κ)) : appsOf (l ++ m) = appsOf l ++ appsOf m := by simp [appsOf]

theorem appsOf_apps {α κ : Type} (l : List α) : appsOf (κ := κ) (l.map .app) = l := by
  induction l with
  | nil => rfl
  | cons a l ih => simp only [List.map_cons, appsOf, List.filterMap_cons] at ih ⊢; rw [ih]

end

/-- What is replied for an answer of the handler. -/
def replied {ι : Type} : ι × HRes → Option (ι × Nat × Bytes)
  | (k, .ok b) => some (k, 0, b)
  | (k, .err _) => some (k, 1, [])
  | (_, .panic) => none

/-- The request, of those that matter, that a command for `dev` makes. -/
def reachedBy {κ ι : Type} (dev : Device) (key : HCall → Option κ) (tag : κ → ι) : Cmd → Option ι
  | .submit header _ len _ _ _ setup data _ => ((Job.call ⟨dev, header, len, setup, data⟩).bind key).map tag
  | _ => none

/-- The same, found in a log. -/
def loggedFor {ι : Type} (r : Cmd → Option ι) (e : Handled) : Option (ι × Nat × Bytes) :=
  (outcome e).bind (fun x => (r x.1).map (fun k => (k, x.2)))

/-- The calls `key` singles out work like `obj`, on what `view` shows of object `o`; no other call changes that. -/
structure Works {τ β κ : Type} (env : Env (HandlerId → τ)) (o : HandlerId) (view : τ → β) (key : HCall → Option κ)
    (obj : κ → β → HRes × β) : Prop where
  call : ∀ (call : HCall) k u, key call = some k →
    (call.answer env u).1 = (obj k (view (u o))).1 ∧ view ((call.answer env u).2 o) = (obj k (view (u o))).2
  others : ∀ (call : HCall) u, key call = none → view ((call.answer env u).2 o) = view (u o)

/-! ## The object behind the server -/

section
variable {τ β κ ι : Type} {code : Code τ} {env : Env (HandlerId → τ)} {p : Profile} {o : HandlerId} {key : HCall → Option κ} {tag : κ → ι} {view : τ → β}
  {obj : κ → β → HRes × β}

theorem invoke_served (hS : Works env o view key obj) (w : World (HandlerId → τ)) (call : HCall) :
    ((∃ k, key call = some k ∧ crashed w call.target = false ∧
      (env.invoke w call).1 = (obj k (view (w.user o))).1.toOutcome ∧
      view ((env.invoke w call).2.user o) = (obj k (view (w.user o))).2)) ∨
    (view ((env.invoke w call).2.user o) = view (w.user o) ∧
      (∀ k, key call = some k → (env.invoke w call).1 = .panic)) := by
  rw [invoke_fine]
  by_cases hc : crashed w call.target = true
  · rw [if_pos hc]
    exact .inr ⟨rfl, fun _ _ => rfl⟩
  · rw [if_neg hc]
    have huser : ∀ u : HandlerId → τ, (if (call.answer env w.user).1 = .panic then World.poison { w with user := u } call.target
        else { w with user := u }).user = u := by
      intro u; split
      · rw [poison_user]
      · rfl
    rw [huser]
    cases ht : key call with
    | some k =>
      left
      obtain ⟨h1, h2⟩ := hS.call call k w.user ht
      refine ⟨k, rfl, by simpa using hc, ?_, h2⟩
      show (call.answer env w.user).1.toOutcome = _
      rw [h1]
    | none => exact .inr ⟨hS.others call w.user ht, fun _ h => by cases h⟩

/-- Serving a command, as far as the object is concerned. -/
theorem serve_served (hS : Works env o view key obj) (s : Shared (HandlerId → τ)) (cur : Option Bytes) (cmd : Cmd) :
    (∃ hd f len sf np iv setup data iso dv call k, cmd = .submit hd f len sf np iv setup data iso ∧
      cur.bind (fun id => amGet id s.used) = some dv ∧ Job.call ⟨dv, hd, len, setup, data⟩ = some call ∧ key call = some k ∧
      view ((s.serve env p cur cmd).2.1.world.user o) =
        (obj k (view (s.world.user o))).2 ∧
      (s.serve env p cur cmd).1 = match (obj k (view (s.world.user o))).1 with
        | .ok b => .ok (usbipRetSubmitSuccess { hd with command := 3 } 0 0 b [])
        | .err _ => .ok (usbipRetSubmitFail { hd with command := 3 })
        | .panic => .panic) ∨
    (view ((s.serve env p cur cmd).2.1.world.user o) = view (s.world.user o) ∧
      ∀ dv r, cur.bind (fun id => amGet id s.used) = some dv → (s.serve env p cur cmd).1 = .ok r → reachedBy dv key tag cmd = none) := by
  cases cmd with
  | reqDevlist st => exact .inr ⟨rfl, fun _ _ _ _ => rfl⟩
  | unlink hd n => exact .inr ⟨rfl, fun _ _ _ _ => rfl⟩
  | reqImport st b =>
    refine .inr ⟨?_, fun _ _ _ _ => rfl⟩
    simp only [Shared.serve, Shared.import]
    split <;> rfl
  | submit hd f len sf np iv setup data iso =>
    cases hdv : cur.bind (fun id => amGet id s.used) with
    | none =>
      refine .inr ⟨?_, fun dv r hn => by cases hn⟩
      simp only [Shared.serve, hdv]
    | some dv =>
      have e1 : s.serve env p cur (.submit hd f len sf np iv setup data iso) =
          ((s.submit env p dv hd len setup data).1, (s.submit env p dv hd len setup data).2, cur) := by
        simp only [Shared.serve, hdv]
      rw [e1]
      cases hf : endpointAt dv (Job.address ⟨dv, hd, len, setup, data⟩) with
      | none =>
        rw [submit_missing env p s ⟨dv, hd, len, setup, data⟩ hf]
        refine .inr ⟨rfl, fun dv' r h1 _ => ?_⟩
        cases h1
        simp only [reachedBy, Job.call, hf, Option.bind_none, Option.map_none]
      | some q =>
        obtain ⟨ep, intf⟩ := q
        rw [submit_eq env p s ⟨dv, hd, len, setup, data⟩ ep intf hf]
        dsimp only
        rw [handleUrb_addressee]
        cases hc : addressee dv ep intf len (setupAt setup) data with
        | none =>
          refine .inr ⟨?_, fun dv' r h1 _ => ?_⟩
          · dsimp only
            split <;> rfl
          · cases h1
            simp only [reachedBy, Job.call, hf, hc, Option.bind_none, Option.map_none]
        | some call =>
          dsimp only
          have hcall : Job.call ⟨dv, hd, len, setup, data⟩ = some call := by simp only [Job.call, hf, hc]
          rcases invoke_served hS s.world call with ⟨k, hk, _, h1, h2⟩ | ⟨h1, h2⟩
          · refine .inl ⟨hd, f, len, sf, np, iv, setup, data, iso, dv, call, k, rfl, rfl, hcall, hk, h2, ?_⟩
            rw [h1]
            cases (obj k (view (s.world.user o))).1 <;> rfl
          · refine .inr ⟨h1, fun dv' r g1 g2 => ?_⟩
            cases g1
            unfold reachedBy
            dsimp only
            rw [hcall, Option.bind_some]
            cases hk : key call with
            | none => rfl
            | some k => rw [h2 k hk] at g2; cases g2

theorem release_world {σ} {s s' : Shared σ} {cur : Option Bytes} (h : s.release cur = some s') : s'.world = s.world := by
  cases cur with
  | none => simp only [Shared.release, Option.some.injEq] at h; subst h; rfl
  | some id =>
    simp only [Shared.release] at h
    split at h
    · simp only [Option.some.injEq] at h; subst h; rfl
    · cases h

/-- An iteration: it reads nothing, or executes a command; it goes on only if there is a response. -/
theorem iterate_made {σ} (env : Env σ) (p : Profile) (s : Shared σ) (x : Conn) (wr : WriteRes) :
    (x.made env p s = [] ∧ (x.iterate env p s wr).2.status ≠ .running ∧
      ((x.iterate env p s wr).1.world = s.world ∨ ∃ cmd rest, readCommand p x.input = .ok (cmd, rest) ∧
        (x.iterate env p s wr).1.world = (s.serve env p x.current cmd).2.1.world)) ∨
    ∃ used cmd rest resp bytes, readCommand p x.input = .ok (cmd, rest) ∧ (s.serve env p x.current cmd).1 = .ok resp ∧
      x.made env p s = [(used, cmd, resp, bytes)] ∧
      (x.iterate env p s wr).1 = (s.serve env p x.current cmd).2.1 ∧
      (x.iterate env p s wr).2.current = (s.serve env p x.current cmd).2.2 := by
  have h := iterate_res env p s x wr
  generalize (x.iterate env p s wr).1 = s' at h ⊢
  generalize (x.iterate env p s wr).2 = x' at h ⊢
  cases h with
  | done e s' hr hrel =>
    refine .inl ⟨by simp [Conn.made, hr], ?_, .inl (release_world hrel)⟩
    dsimp only; split <;> simp
  | missing e hr hrel => exact .inl ⟨by simp [Conn.made, hr], by simp, .inl rfl⟩
  | readPanic hr => exact .inl ⟨by rcases hr with hr | hr <;> simp [Conn.made, hr], by simp, .inl rfl⟩
  | answered cmd rest resp s' cur' bytes hr hs hb hw =>
    exact .inr ⟨x.input.bytes.take (x.input.bytes.length - rest.bytes.length), cmd, rest, resp, bytes, hr, by rw [hs], by simp only [Conn.made, hr, hs, hb], by rw [hs], by rw [hs]⟩
  | writeFailed cmd rest resp s' cur' bytes n e hr hs hb hw =>
    exact .inr ⟨x.input.bytes.take (x.input.bytes.length - rest.bytes.length), cmd, rest, resp, bytes, hr, by rw [hs], by simp only [Conn.made, hr, hs, hb], by rw [hs], by rw [hs]⟩
  | writeCut cmd rest resp s' cur' bytes n hr hs hb hw =>
    exact .inr ⟨x.input.bytes.take (x.input.bytes.length - rest.bytes.length), cmd, rest, resp, bytes, hr, by rw [hs], by simp only [Conn.made, hr, hs, hb], by rw [hs], by rw [hs]⟩
  | servePanic cmd rest hr hs =>
    refine .inl ⟨?_, by simp, .inr ⟨cmd, rest, hr, rfl⟩⟩
    unfold Conn.made
    rw [hr]
    dsimp only
    rcases hs with hs | ⟨r, h1, h2⟩
    · cases hq : (s.serve env p x.current cmd).1 with
      | ok r => exact absurd hq (hs r)
      | _ => rfl
    · rw [h1]
      dsimp only
      cases hq : r.toBytes p with
      | ok b => exact absurd hq (h2 b)
      | _ => rfl

/-- An iteration, as far as the object is concerned. -/
theorem iterate_served (hS : Works env o view key obj) (s : Shared (HandlerId → τ)) (x : Conn) (wr : WriteRes) :
    (∃ dv call k, x.current.bind (fun id => amGet id s.used) = some dv ∧ key call = some k ∧ call.target ∈ handlersOf dv ∧
      view ((x.iterate env p s wr).1.world.user o) =
        (obj k (view (s.world.user o))).2 ∧
      ((x.made env p s = [] ∧ (x.iterate env p s wr).2.status ≠ .running) ∨
        ∃ g, x.made env p s = [g] ∧ isImport g.2.1 = false ∧ (x.iterate env p s wr).2.current = x.current ∧
          (obj k (view (s.world.user o))).1 ≠ .panic ∧ reachedBy dv key tag g.2.1 = some (tag k) ∧
          loggedFor (reachedBy dv key tag) g.2 = replied (tag k, (obj k (view (s.world.user o))).1))) ∨
    (view ((x.iterate env p s wr).1.world.user o) = view (s.world.user o) ∧
      ∀ g ∈ x.made env p s, ∀ dv, x.current.bind (fun id => amGet id s.used) = some dv →
        loggedFor (reachedBy dv key tag) g.2 = none ∧ reachedBy dv key tag g.2.1 = none) := by
  have owner : ∀ {dv hd len setup data} {call : HCall}, Job.call ⟨dv, hd, len, setup, data⟩ = some call →
      call.target ∈ handlersOf dv := by
    intro dv hd len setup data call hcall
    unfold Job.call at hcall
    split at hcall
    · rename_i ep ow hep
      exact addressee_handler (findEp_owner hep) hcall
    · cases hcall
  rcases iterate_made env p s x wr with ⟨h1, h2, h3 | ⟨cmd, rest, h3, h4⟩⟩ | ⟨used, cmd, rest, resp, bytes, h1, h2, h3, h4, h5⟩
  · exact .inr ⟨by rw [h3], by rw [h1]; simp⟩
  · rcases serve_served (p := p) (tag := tag) hS s x.current cmd with
      ⟨hd, f, len, sf, np, iv, setup, data, iso, dv, call, k, rfl, g1, g2, hk, g3, g4⟩ | ⟨g1, g2⟩
    · exact .inl ⟨dv, call, k, g1, hk, owner g2, by rw [h4]; exact g3, .inl ⟨h1, h2⟩⟩
    · exact .inr ⟨by rw [h4]; exact g1, by rw [h1]; simp⟩
  · rcases serve_served (p := p) (tag := tag) hS s x.current cmd with
      ⟨hd, f, len, sf, np, iv, setup, data, iso, dv, call, k, rfl, g1, g2, hk, g3, g4⟩ | ⟨g1, g2⟩
    · refine .inl ⟨dv, call, k, g1, hk, owner g2, by rw [h4]; exact g3, .inr ⟨_, h3, rfl, ?_, ?_, ?_, ?_⟩⟩
      · rw [h5]
        simp only [Shared.serve, g1]
      · intro hp
        rw [h2, hp] at g4
        cases g4
      · simp only [reachedBy, g2, Option.bind_some, hk, Option.map_some]
      · have hreach : reachedBy dv key tag (.submit hd f len sf np iv setup data iso) = some (tag k) := by
          simp only [reachedBy, g2, Option.bind_some, hk, Option.map_some]
        rw [h2] at g4
        cases ho : (obj k (view (s.world.user o))).1 with
        | ok b =>
          rw [ho] at g4
          simp only [Outcome.ok.injEq] at g4
          subst g4
          simp only [loggedFor, usbipRetSubmitSuccess, outcome, Option.bind_some, hreach, Option.map_some, replied]
          rfl
        | err er =>
          rw [ho] at g4
          simp only [Outcome.ok.injEq] at g4
          subst g4
          simp only [loggedFor, usbipRetSubmitFail, outcome, Option.bind_some, hreach, Option.map_some, replied]
          rfl
        | panic => rw [ho] at g4; cases g4
    · refine .inr ⟨by rw [h4]; exact g1, ?_⟩
      rw [h3]
      intro g hg dv hdv
      simp only [List.mem_singleton] at hg
      subst hg
      refine ⟨?_, g2 dv resp hdv h2⟩
      unfold loggedFor
      cases ho : outcome (cmd, resp, bytes) with
      | none => rfl
      | some r =>
        have : r.1 = cmd := by
          unfold outcome at ho
          split at ho
          · rename_i heq
            simp only [Prod.mk.injEq] at heq
            simp only [Option.some.injEq] at ho
            rw [← ho, heq.1]
          · cases ho
        rw [Option.bind_some, this]
        rw [g2 dv resp hdv h2]
        rfl

end

end Usbip
