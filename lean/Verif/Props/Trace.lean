import Verif.Lemmas.Trace
import Verif.Props.Host
/-!
# Handlers and shared host devices over whole histories: C68, C69
-/

namespace Usbip
open Spec Samples

/-! ## C68 -/

/-- C68: over any history, with arbitrary handlers, the handlers' state evolves exactly as if the
invocations asked for by the clients' submits (and the application's own actions) had been carried
out one after the other, each once, in the order of execution, with the data of the request; and
what each client was sent carries the answer of the invocation its submit led to. -/
theorem C68_invocations {σ} (env : Env σ) (p : Profile) (es : List (Event σ)) : ∀ s : Sys σ,
    let t := trace env p s es
    (s.run env p es).shared.world.user = (perform env s.shared.world.user (t.map Prod.fst)).2 ∧
    Pointwise Carries (t.filterMap Prod.snd) (perform env s.shared.world.user (t.map Prod.fst)).1 := by
  induction es with
  | nil => intro s; exact ⟨rfl, .nil⟩
  | cons e es ih =>
    intro s
    have hst := step_traced env p s e
    have hrun : s.run env p (e :: es) = (s.step env p e).run env p es := rfl
    obtain ⟨i1, i2⟩ := ih (s.step env p e)
    intro t
    have ht : t = (witness env p s e).toList ++ trace env p (s.step env p e) es := rfl
    rw [ht, hrun]
    cases ho : witness env p s e with
    | none =>
      rw [ho] at hst
      dsimp only at hst
      rw [hst] at i1 i2
      exact ⟨i1, i2⟩
    | some r =>
      obtain ⟨a, o⟩ := r
      rw [ho] at hst
      cases a with
      | user f =>
        obtain ⟨rfl, hst, _⟩ := hst
        rw [hst] at i1 i2
        exact ⟨i1, i2⟩
      | call c =>
        obtain ⟨r, rfl, _, hst, hcar, _⟩ := hst
        rw [hst] at i1 i2
        exact ⟨i1, .cons hcar i2⟩

/-- C68: a handler panics at most once, and it is skipped exactly from then on: handler `k` is
poisoned after a history exactly if it was before, or the application panicked with the handler in its
hands, or one of its invocations panicked. -/
theorem C68_poisoned {σ} (env : Env σ) (p : Profile) (k : HandlerId) (es : List (Event σ)) : ∀ s : Sys σ,
    crashed (s.run env p es).shared.world k = true ↔
      crashed s.shared.world k = true ∨ (∃ f, .user f (some k) ∈ es) ∨
      ∃ (n : Nat) (c : HCall), (trace env p s es)[n]?.map Prod.fst = some (Act.call c) ∧ c.target = k ∧
        (c.answer env (perform env s.shared.world.user
          (((trace env p s es).map Prod.fst).take n)).2).1 = .panic := by
  induction es with
  | nil => intro s; simp [trace, Sys.run]
  | cons e es ih =>
    intro s
    have hst := step_traced env p s e
    have hrun : s.run env p (e :: es) = (s.step env p e).run env p es := rfl
    have ht : trace env p s (e :: es) = (witness env p s e).toList ++ trace env p (s.step env p e) es := rfl
    rw [ht, hrun, ih]
    have other : (∀ f crash, e ≠ .user f crash) →
        ((∃ f, .user f (some k) ∈ e :: es) ↔ ∃ f, .user f (some k) ∈ es) := by
      intro he
      simp only [List.mem_cons]
      exact ⟨fun ⟨f, h⟩ => h.elim (fun h => absurd h.symm (he f _)) (fun h => ⟨f, h⟩), fun ⟨f, h⟩ => ⟨f, .inr h⟩⟩
    have notUser : (∀ f o, witness env p s e ≠ some (.user f, o)) → ∀ f crash, e ≠ .user f crash := by
      rintro hn f crash rfl
      exact hn f none rfl
    cases ho : witness env p s e with
    | none =>
      rw [ho] at hst
      dsimp only at hst
      rw [hst, other (notUser (by rw [ho]; simp))]
      rfl
    | some r =>
      obtain ⟨a, o⟩ := r
      rw [ho] at hst
      simp only [Option.toList_some, List.singleton_append, List.map_cons]
      cases a with
      | user f =>
        obtain ⟨rfl, hst, crash, rfl, hcr⟩ := hst
        rw [hst, hcr]
        constructor
        · rintro ((h | rfl) | ⟨g, h⟩ | ⟨n, c, h1, h2, h3⟩)
          · exact .inl h
          · exact .inr (.inl ⟨f, by simp⟩)
          · exact .inr (.inl ⟨g, by simp [h]⟩)
          · exact .inr (.inr ⟨n + 1, c, by simpa using h1, h2, h3⟩)
        · rintro (h | ⟨g, h⟩ | ⟨n, c, h1, h2, h3⟩)
          · exact .inl (.inl h)
          · simp only [List.mem_cons, Event.user.injEq] at h
            rcases h with ⟨_, h⟩ | h
            · exact .inl (.inr h.symm)
            · exact .inr (.inl ⟨g, h⟩)
          · cases n with
            | zero => simp at h1
            | succ n => exact .inr (.inr ⟨n, c, by simpa using h1, h2, h3⟩)
      | call c =>
        obtain ⟨r, rfl, _, hst, _, hcr⟩ := hst
        rw [hst, hcr, other (notUser (by rw [ho]; simp))]
        constructor
        · rintro ((h | ⟨rfl, h⟩) | h | ⟨n, c', h1, h2, h3⟩)
          · exact .inl h
          · exact .inr (.inr ⟨0, c, rfl, rfl, h⟩)
          · exact .inr (.inl h)
          · exact .inr (.inr ⟨n + 1, c', by simpa using h1, h2, h3⟩)
        · rintro (h | h | ⟨n, c', h1, h2, h3⟩)
          · exact .inl (.inl h)
          · exact .inr (.inl h)
          · cases n with
            | zero =>
              simp only [List.getElem?_cons_zero, Option.map_some, Option.some.injEq, Act.call.injEq] at h1
              subst h1
              exact .inl (.inr ⟨h2.symm, h3⟩)
            | succ n => exact .inr (.inr ⟨n, c', by simpa using h1, h2, h3⟩)

/-- Two clients: the first polls endpoint 1 of its device twice and then the endpoint whose handler
panics, the second sends a vendor request to its device in between. -/
def traceHistory : List (Event Nat) :=
  let poll (n : UInt32) (ep : UInt32) : Bytes := wireCmd (.submit ⟨1, n, 65538, 1, ep⟩ 0 8 0 0 0 [0, 0, 0, 0, 0, 0, 0, 0] [] [])
  [.connect 0 ⟨wireCmd (.reqImport 0 busA) ++ poll 1 1 ++ poll 2 1 ++ poll 3 3, .unexpectedEof⟩,
   .connect 1 ⟨wireCmd (.reqImport 0 busB) ++ wireCmd (.submit ⟨1, 1, 65538, 1, 0⟩ 0 1 0 0 0
      [0xC0, 1, 0, 0, 0, 0, 1, 0] [] []), .unexpectedEof⟩,
   .iterate 0 .full, .iterate 1 .full, .iterate 0 .full, .iterate 1 .full, .iterate 0 .full, .user (· + 5),
   .iterate 0 .full]

def actTarget : Act Nat → Option HandlerId
  | .user _ => none
  | .call c => some c.target

/-- Test: four invocations and one action of the application are seen; the second poll is answered
from the state the vendor request left behind. -/
example :
    let s : Sys Nat := ⟨⟨[devA, devB], [], world⟩, fun _ => none⟩
    let t := trace env release s traceHistory
    t.map (fun x => actTarget x.1) = [some (.iface 0), some (.dev 4), some (.iface 0), none, some (.iface 1)] ∧
    (t.filterMap Prod.snd).map Sent.data = [[0, 7], [9], [11, 7], []] ∧
    (s.run env release traceHistory).shared.world.user = 17 ∧
    crashed (s.run env release traceHistory).shared.world (.iface 1) = true := by
  decide +kernel

/-- Test: if the application panics with handler 0 in its hands before the second poll, that poll panics and ends
its connection without a reply; the other client's request is answered. -/
example :
    let s : Sys Nat := ⟨⟨[devA, devB], [], world⟩, fun _ => none⟩
    let es := traceHistory.take 5 ++ .user (· + 1) (some (.iface 0)) :: traceHistory.drop 5
    let t := trace env release s es
    t.map (fun x => actTarget x.1) = [some (.iface 0), none, some (.dev 4), none] ∧
    (t.filterMap Prod.snd).map Sent.data = [[0, 7], [9]] ∧
    crashed (s.run env release es).shared.world (.iface 0) = true ∧
    crashed (s.run env release es).shared.world (.iface 1) = false ∧
    ((s.run env release es).conns 0).map Conn.status = some .panicked := by
  decide +kernel

/-! ## C69 and C86: a device shared through libusb -/

/-- The device's own activity, beside the record of calls. -/
def actOn {α τ} (act : α → τ → τ) (a : α) (h : Handle (τ × List LibCall)) : Handle (τ × List LibCall) :=
  ⟨(act a h.dev.1, h.dev.2), h.poisoned⟩

/-- The device, the record of calls, and whether the device is dead. -/
def Handle.view {τ} (h : Handle (τ × List LibCall)) : τ × List LibCall × Bool := (h.dev.1, h.dev.2, h.poisoned)

theorem hostRun_cons {τ α} (lib : RusbLib τ) (act : α → τ → τ) (s : τ × List LibCall × Bool) (x : HostOp α)
    (ops : List (HostOp α)) :
    hostRun lib act s (x :: ops) = ((hostRun lib act s [x]).1 ++ (hostRun lib act (hostRun lib act s [x]).2 ops).1,
      (hostRun lib act (hostRun lib act s [x]).2 ops).2) := by
  obtain ⟨t, log, dead⟩ := s
  cases x <;> cases dead <;> simp [hostRun]

/-- A host handler's answer, and its effect on the device and the record. -/
theorem sharing_answer {σ τ α} (lib : RusbLib τ) (act : α → τ → τ) (ifs devs : Nat → Bool) (env : Env σ)
    (u : σ × Handle (τ × List LibCall)) (c : HCall) :
    match (hostOp ifs devs c : Option (HostOp α)) with
    | some x => hostRun lib act u.2.view [x] = ([(c.answer (sharing (watchLib lib) ifs devs env) u).1],
        (c.answer (sharing (watchLib lib) ifs devs env) u).2.2.view)
    | none => (c.answer (sharing (watchLib lib) ifs devs env) u).2.2 = u.2 := by
  obtain ⟨u1, ⟨t, log⟩, dead⟩ := u
  cases c with
  | iface h i e len s data =>
    simp only [hostOp, HCall.answer, sharing, Handle.locked]
    by_cases hh : ifs h = true
    · simp only [hh, if_true]
      have := rusbIface_any lib e len s data t log
      rw [this]
      cases ifaceCall e len s data with
      | none => cases dead <;> rfl
      | some l =>
        cases dead
        · by_cases ho : l.Overlong lib t <;> simp [hostRun, Handle.view, ho]
        · rfl
    · simp only [hh]
      rfl
  | dev h len s data =>
    simp only [hostOp, HCall.answer, sharing, Handle.locked]
    by_cases hh : devs h = true
    · simp only [hh, if_true]
      have := rusbDev_any lib len s data t log
      rw [this]
      cases dead
      · by_cases ho : (devCall len s data).Overlong lib t <;> simp [hostRun, Handle.view, ho]
      · rfl
    · simp only [hh]
      rfl

theorem hostOp_some {α} (ifs devs : Nat → Bool) (c : HCall)
    (h : hostHandler ifs devs c.target = true) :
    ∃ x : HostOp α, hostOp ifs devs c = some x := by
  cases c <;> simp only [hostOp, hostHandler, HCall.target] at h ⊢ <;> simp [h]

/-- With an honest library. -/
theorem hostRun_honest {τ α} (lib : RusbLib τ) (hl : Honest lib) (act : α → τ → τ) (ops : List (HostOp α)) :
    ∀ t log, hostRun lib act (t, log, false) ops =
      ((libRun lib act t ops).1.map HRes.ok, ((libRun lib act t ops).2, log ++ libCalls ops, false)) := by
  induction ops with
  | nil => intro t log; simp [hostRun, libRun, libCalls]
  | cons x ops ih =>
    intro t log
    cases x with
    | app a => simp only [hostRun, libRun, ih]; rfl
    | lib c =>
      have hn : ¬ c.Overlong lib t := (honest_iff lib).mp hl c t
      simp only [hostRun, libRun, hn, decide_false, if_false, ih]
      simp [libCalls]
    | idle => simp only [hostRun, libRun, ih]; rfl

/-- One event other than the device's own activity: the handle stays as it is, or one of the device's handlers is
invoked and its answer sent. -/
theorem step_shared {σ τ α} (lib : RusbLib τ) (ifs devs : Nat → Bool) (env : Env σ)
    (act : α → τ → τ) (p : Profile) (s : Sys (σ × Handle (τ × List LibCall))) (e : Event σ) :
    let env' := sharing (watchLib lib) ifs devs env
    let s' := s.step env' p (HostedEvent.event (actOn act) (.server e))
    ((hostWitness env' (actOn act) ifs devs p s (.server e) = none ∧
      s'.shared.world.user.2 = s.shared.world.user.2) ∨
    (∃ x r a, hostWitness env' (actOn act) ifs devs p s (.server e) = some (x, some r) ∧
      hostRun lib act s.shared.world.user.2.view [x] = ([a], s'.shared.world.user.2.view) ∧ Carries r a)) ∧
    (Honest lib → s.shared.world.user.2.poisoned = false →
      (∀ h, ifs h = true → (∀ f, e ≠ .user f (some (.iface h))) → s.shared.world.ifPoisoned h = false →
        s'.shared.world.ifPoisoned h = false) ∧
      (∀ h, devs h = true → (∀ f, e ≠ .user f (some (.dev h))) → s.shared.world.devPoisoned h = false →
        s'.shared.world.devPoisoned h = false)) := by
  intro env' s'
  have hst := step_traced env' p s (HostedEvent.event (actOn act) (.server e))
  have hs' : s.step env' p (HostedEvent.event (actOn act) (.server e)) = s' := rfl
  rw [hs'] at hst
  cases hw : witness env' p s (HostedEvent.event (actOn act) (.server e)) with
  | none =>
    rw [hw] at hst
    dsimp only at hst
    refine ⟨Or.inl ⟨by simp only [hostWitness, hw], by rw [hst]⟩, fun _ _ => ⟨?_, ?_⟩⟩
    · intro h _ _ b; rw [hst]; exact b
    · intro h _ _ b; rw [hst]; exact b
  | some r =>
    obtain ⟨a, o⟩ := r
    rw [hw] at hst
    cases a with
    | user f =>
      obtain ⟨_, hst, crash, he, hcr⟩ := hst
      have none_crashed : ∀ k, (∀ f, e ≠ .user f (some k)) → crashed s.shared.world k = false →
          crashed s'.shared.world k = false := by
        intro k hk b
        cases hx : crashed s'.shared.world k with
        | false => rfl
        | true =>
          rcases (hcr k).mp hx with h | rfl
          · rw [b] at h; simp at h
          · cases e <;> simp only [HostedEvent.event, reduceCtorEq, Event.user.injEq] at he
            exact absurd (by rw [he.2]) (hk _)
      refine ⟨Or.inl ⟨by simp only [hostWitness, hw], ?_⟩,
        fun _ _ => ⟨fun h _ => none_crashed (.iface h), fun h _ => none_crashed (.dev h)⟩⟩
      · rw [hst]
        cases e with
        | user g =>
          simp only [HostedEvent.event, witness, Option.some.injEq, Prod.mk.injEq, Act.user.injEq] at hw
          rw [← hw.1]
        | iterate c w =>
          exfalso
          simp only [HostedEvent.event, witness] at hw
          split at hw
          · split at hw <;> simp at hw
          · simp at hw
        | connect c i => simp [HostedEvent.event, witness] at hw
        | cancel c => simp [HostedEvent.event, witness] at hw
        | addDevice d => simp [HostedEvent.event, witness] at hw
        | removeDevice b => simp [HostedEvent.event, witness] at hw
    | call c =>
      obtain ⟨r, rfl, hp, hu, hcar, hcr⟩ := hst
      have hans := sharing_answer lib act ifs devs env s.shared.world.user c
      refine ⟨?_, fun hl hpo => ?_⟩
      · cases hc : (hostOp ifs devs c : Option (HostOp α)) with
        | none =>
          rw [hc] at hans
          exact Or.inl ⟨by simp only [hostWitness, hw, hc, Option.map_none], by rw [hu]; exact hans⟩
        | some x =>
          rw [hc] at hans
          exact Or.inr ⟨x, r, _, by simp only [hostWitness, hw, hc, Option.map_some], by rw [hu]; exact hans, hcar⟩
      · have hnp : hostHandler ifs devs c.target = true →
            (c.answer env' s.shared.world.user).1 ≠ .panic := by
          intro h hpan
          obtain ⟨x, hx⟩ := hostOp_some (α := α) ifs devs c h
          rw [hx] at hans
          have hh := hostRun_honest lib hl act [x] s.shared.world.user.2.dev.1 s.shared.world.user.2.dev.2
          have hv : s.shared.world.user.2.view =
              (s.shared.world.user.2.dev.1, s.shared.world.user.2.dev.2, false) := by rw [Handle.view, hpo]
          dsimp only at hans
          rw [hv, hh] at hans
          have h1 := (Prod.mk.inj hans).1
          have h2 : HRes.panic ∈ (libRun lib act s.shared.world.user.2.dev.1 [x]).1.map HRes.ok := by
            rw [h1]; exact List.mem_singleton.mpr hpan.symm
          obtain ⟨b, _, h3⟩ := List.mem_map.mp h2
          cases h3
        refine ⟨?_, ?_⟩
        · intro h a _ b
          have := hcr (.iface h)
          simp only [crashed, b] at this
          cases hx : s'.shared.world.ifPoisoned h with
          | false => rfl
          | true =>
            rcases this.mp hx with h0 | ⟨h1, h2⟩
            · simp at h0
            · cases c with
              | iface h' i e l st d =>
                simp only [HCall.target, HandlerId.iface.injEq] at h1
                subst h1
                exact absurd h2 (hnp a)
              | dev h' l st d => simp [HCall.target] at h1
        · intro h a _ b
          have := hcr (.dev h)
          simp only [crashed, b] at this
          cases hx : s'.shared.world.devPoisoned h with
          | false => rfl
          | true =>
            rcases this.mp hx with h0 | ⟨h1, h2⟩
            · simp at h0
            · cases c with
              | dev h' l st d =>
                simp only [HCall.target, HandlerId.dev.injEq] at h1
                subst h1
                exact absurd h2 (hnp a)
              | iface h' i e l st d => simp [HCall.target] at h1

/-- C86: over any history of a server that shares a libusb device beside arbitrary others, with any library: what the
device's handlers answer, which calls of libusb are made, what becomes of the device, is what `hostRun` says; and
every client is sent its answer. -/
theorem C86_shared {σ τ α} (lib : RusbLib τ) (ifs devs : Nat → Bool) (env : Env σ)
    (act : α → τ → τ) (p : Profile) (es : List (HostedEvent σ α)) : ∀ s : Sys (σ × Handle (τ × List LibCall)),
    let env' := sharing (watchLib lib) ifs devs env
    let obs := hostTrace env' (actOn act) ifs devs p s es
    let ops := obs.map Prod.fst
    let start := s.shared.world.user.2
    let end_ := (s.run env' p (es.map (HostedEvent.event (actOn act)))).shared.world.user.2
    (hostRun lib act (start.dev.1, start.dev.2, start.poisoned) ops).2 = (end_.dev.1, end_.dev.2, end_.poisoned) ∧
    Pointwise Carries (obs.filterMap Prod.snd) (hostRun lib act (start.dev.1, start.dev.2, start.poisoned) ops).1 := by
  induction es with
  | nil => intro s; exact ⟨rfl, .nil⟩
  | cons e es ih =>
    intro s
    intro env' obs ops start end_
    have hst := step_traced env' p s (e.event (actOn act))
    obtain ⟨i1, i2⟩ := ih (s.step env' p (e.event (actOn act)))
    have hend : end_ = ((s.step env' p (e.event (actOn act))).run env' p
        (es.map (HostedEvent.event (actOn act)))).shared.world.user.2 := rfl
    have hobs : obs = (hostWitness env' (actOn act) ifs devs p s e).toList ++
        hostTrace env' (actOn act) ifs devs p (s.step env' p (e.event (actOn act))) es := rfl
    have hops : ops = obs.map Prod.fst := rfl
    have hstart : start = s.shared.world.user.2 := rfl
    rw [hops, hobs, hend, hstart]
    clear hops hobs hend hstart
    clear_value end_ obs ops start
    cases e with
    | app a =>
      simp only [HostedEvent.event, witness] at hst
      simp only [HostedEvent.event] at i1 i2
      rw [hst.2.1] at i1 i2
      exact ⟨i1, i2⟩
    | server e =>
      rcases (step_shared lib ifs devs env act p s e).1 with ⟨hn, hu⟩ | ⟨x, r, a, hwt, hx, hcar⟩
      · rw [hu] at i1 i2
        rw [hn]
        exact ⟨i1, i2⟩
      · rw [hwt]
        simp only [Option.toList_some, List.map_append, List.map_cons, List.map_nil, List.singleton_append,
          List.filterMap_cons]
        have hc := hostRun_cons lib act s.shared.world.user.2.view x
          ((hostTrace env' (actOn act) ifs devs p (s.step env' p (HostedEvent.event (actOn act) (.server e))) es).map Prod.fst)
        rw [hx] at hc
        have hc' : hostRun lib act (s.shared.world.user.2.dev.1, s.shared.world.user.2.dev.2,
            s.shared.world.user.2.poisoned) (x :: (hostTrace env' (actOn act) ifs devs p
              (s.step env' p (HostedEvent.event (actOn act) (.server e))) es).map Prod.fst) = _ := hc
        rw [hc']
        exact ⟨i1, .cons hcar i2⟩

/-- C69: over any history of a server that shares a libusb device beside arbitrary others, libusb is
called exactly once for each submit to the shared device (isochronous ones aside), in the order of
execution, with the endpoint, request and data of the submit, and never otherwise; every client is
sent what libusb read for its submit; and no client can make the device's handlers
panic (the application might, with a handler in its hands). -/
theorem C69_shared {σ τ α} (lib : RusbLib τ) (hl : Honest lib) (ifs devs : Nat → Bool) (env : Env σ)
    (act : α → τ → τ) (p : Profile) (es : List (HostedEvent σ α)) : ∀ s : Sys (σ × Handle (τ × List LibCall)),
    s.shared.world.user.2.poisoned = false →
    let env' := sharing (watchLib lib) ifs devs env
    let obs := hostTrace env' (actOn act) ifs devs p s es
    let ops := obs.map Prod.fst
    let start := s.shared.world.user.2.dev
    let end_ := (s.run env' p (es.map (HostedEvent.event (actOn act)))).shared.world
    end_.user.2.dev.2 = start.2 ++ libCalls ops ∧
    end_.user.2.dev.1 = (libRun lib act start.1 ops).2 ∧
    Pointwise Carries (obs.filterMap Prod.snd) ((libRun lib act start.1 ops).1.map HRes.ok) ∧
    end_.user.2.poisoned = false ∧
    (∀ h, ifs h = true → (∀ f, .server (.user f (some (.iface h))) ∉ es) → s.shared.world.ifPoisoned h = false →
      end_.ifPoisoned h = false) ∧
    (∀ h, devs h = true → (∀ f, .server (.user f (some (.dev h))) ∉ es) → s.shared.world.devPoisoned h = false →
      end_.devPoisoned h = false) := by
  intro s hpo env' obs ops start end_
  obtain ⟨h1, h2⟩ := C86_shared lib ifs devs env act p es s
  rw [hpo, hostRun_honest lib hl] at h1 h2
  simp only [Prod.mk.injEq] at h1
  refine ⟨h1.2.1.symm, h1.1.symm, h2, h1.2.2.symm, ?_⟩
  clear h1 h2
  simp only [end_]
  clear_value obs ops start end_
  clear obs ops start end_
  induction es generalizing s with
  | nil => exact ⟨fun _ _ _ h => h, fun _ _ _ h => h⟩
  | cons e es ih =>
    have hpo' : (s.step env' p (e.event (actOn act))).shared.world.user.2.poisoned = false := by
      obtain ⟨h1, _⟩ := C86_shared lib ifs devs env act p [e] s
      rw [hpo, hostRun_honest lib hl] at h1
      simp only [Prod.mk.injEq] at h1
      exact h1.2.2.symm
    obtain ⟨i4, i5⟩ := ih _ hpo'
    cases e with
    | app a =>
      exact ⟨fun h a n b => i4 h a (fun f hf => n f (by simp [hf])) b,
        fun h a n b => i5 h a (fun f hf => n f (by simp [hf])) b⟩
    | server e =>
      obtain ⟨hi, hd⟩ := (step_shared lib ifs devs env act p s e).2 hl hpo
      exact ⟨fun h a n b => i4 h a (fun f hf => n f (by simp [hf])) (hi h a (fun f hf => n f (by simp [hf])) b),
        fun h a n b => i5 h a (fun f hf => n f (by simp [hf])) (hd h a (fun f hf => n f (by simp [hf])) b)⟩

/-- One client using the shared device "1-1" (interface handlers 0 and 1): a bulk poll, an interrupt
write, and a poll of endpoint 3; between them the device acts by itself. -/
def sharedHistory : List (HostedEvent Nat Nat) :=
  [.server (.connect 0 ⟨wireCmd (.reqImport 0 busA)
      ++ wireCmd (.submit ⟨1, 1, 65538, 1, 1⟩ 0 4 0 0 0 [0, 0, 0, 0, 0, 0, 0, 0] [] [])
      ++ wireCmd (.submit ⟨1, 2, 65538, 0, 2⟩ 0 3 0 0 0 [0, 0, 0, 0, 0, 0, 0, 0] [1, 2, 3] [])
      ++ wireCmd (.submit ⟨1, 3, 65538, 1, 3⟩ 0 6 0 0 0 [0, 0, 0, 0, 0, 0, 0, 0] [] []), .unexpectedEof⟩),
   .server (.iterate 0 .full), .server (.iterate 0 .full), .app 100, .server (.iterate 0 .full),
   .server (.iterate 0 .full)]

/-- Test: three libusb calls, with the data of the requests; the client is sent what was read. -/
example :
    let env' := sharing (watchLib sampleLib) (fun h => h = 0 ∨ h = 1) (fun _ => false) env
    let s : Sys (Nat × Handle (Nat × List LibCall)) :=
      ⟨⟨[devA], [], ⟨(0, ⟨(0, []), false⟩), fun _ => false, fun _ => false⟩⟩, fun _ => none⟩
    let t := hostTrace env' (actOn (· + ·)) (fun h => h = 0 ∨ h = 1) (fun _ => false) release s sharedHistory
    libCalls (t.map Prod.fst) = [.readBulk 0x81 4, .writeInterrupt 0x02 [1, 2, 3], .readInterrupt 0x83 6] ∧
    (t.filterMap Prod.snd).map Sent.data = [[9, 9], [], [7, 7, 7]] ∧
    (s.run env' release (sharedHistory.map (HostedEvent.event (actOn (· + ·))))).shared.world.user.2
      = ⟨(103, [.readBulk 0x81 4, .writeInterrupt 0x02 [1, 2, 3], .readInterrupt 0x83 6]), false⟩ := by
  decide +kernel

/-! ## C28, over histories -/

/-- C28: the management call as an event of the server's history: at any point it leaves every
connection as it is, with the device it holds and the submit it is going to serve. -/
theorem C28_holders {σ} (env : Env σ) (p : Profile) (s : Sys σ) (id : Bytes) :
    (s.step env p (.removeDevice id)).conns = s.conns ∧
    (∀ k, amGet k (s.step env p (.removeDevice id)).shared.used = amGet k s.shared.used) ∧
    (s.step env p (.removeDevice id)).shared.available = (s.shared.removeDevice id).2.available ∧
    ∀ c, job p (s.step env p (.removeDevice id)) c = job p s c := by
  have hu : (s.step env p (.removeDevice id)).shared.used = s.shared.used := (C28_remove s.shared id).2.2.2.1
  refine ⟨rfl, fun k => by rw [hu], rfl, fun c => ?_⟩
  unfold job
  rw [hu]
  rfl

/-- The first client has imported its device and has a submit waiting; the device is told to go; it
is still the one that will answer. -/
example :
    let s : Sys Nat := ⟨⟨[devA, devB], [], world⟩, fun _ => none⟩
    let s' := s.run env release (traceHistory.take 3)
    (job release (s'.step env release (.removeDevice devA.busId)) 0).map (fun j => j.device.busId) = some devA.busId ∧
    (s'.shared.removeDevice devA.busId).1 = .err .other := by
  decide +kernel

end Usbip
