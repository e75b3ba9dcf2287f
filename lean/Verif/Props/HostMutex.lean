import Verif.Model.HostMutex
import Verif.Props.Trace
import Verif.Props.Crash
import Verif.Props.WholeLive
/-!
# C86: what a libusb that misreports a length does, and one call at a time on each device
-/

namespace Usbip
open Spec Samples

/-! ## A dead device -/

/-- Once the device is dead, libusb is not called any more and every handler panics, whatever happens. -/
theorem hostRun_dead {τ α} (lib : RusbLib τ) (act : α → τ → τ) (ops : List (HostOp α)) : ∀ (t : τ) (log : List LibCall),
    (hostRun lib act (t, log, true) ops).2.2 = (log, true) ∧
    ∀ r ∈ (hostRun lib act (t, log, true) ops).1, r = .panic := by
  induction ops with
  | nil => intro t log; exact ⟨rfl, by simp [hostRun]⟩
  | cons op ops ih =>
    intro t log
    cases op with
    | app a => exact ih _ _
    | lib c =>
      obtain ⟨h1, h2⟩ := ih t log
      exact ⟨h1, fun r hr => (List.mem_cons.mp hr).elim id (h2 r)⟩
    | idle =>
      obtain ⟨h1, h2⟩ := ih t log
      exact ⟨h1, fun r hr => (List.mem_cons.mp hr).elim id (h2 r)⟩

/-- C86: once libusb has claimed to have read more than it was asked for, it is never called for the device again, the
device stays dead, and no client is sent anything by it, whatever happens. -/
theorem C86_dead {σ τ α} (lib : RusbLib τ) (ifs devs : Nat → Bool) (env : Env σ) (act : α → τ → τ) (p : Profile)
    (es : List (HostedEvent σ α)) (s : Sys (σ × Handle (τ × List LibCall)))
    (hd : s.shared.world.user.2.poisoned = true) :
    let env' := sharing (watchLib lib) ifs devs env
    let end_ := (s.run env' p (es.map (HostedEvent.event (actOn act)))).shared.world.user.2
    end_.poisoned = true ∧ end_.dev.2 = s.shared.world.user.2.dev.2 ∧
    ∀ x ∈ (hostTrace env' (actOn act) ifs devs p s es).filterMap Prod.snd, Carries x .panic := by
  intro env' end_
  obtain ⟨h1, h2⟩ := C86_shared lib ifs devs env act p es s
  rw [hd] at h1 h2
  have hdd := hostRun_dead lib act
    ((hostTrace (sharing (watchLib lib) ifs devs env) (actOn act) ifs devs p s es).map Prod.fst)
    s.shared.world.user.2.dev.1 s.shared.world.user.2.dev.2
  have e1 := congrArg Prod.snd h1
  rw [hdd.1] at e1
  simp only [Prod.mk.injEq] at e1
  refine ⟨e1.2.symm, e1.1.symm, fun x hx => ?_⟩
  have key : ∀ {α β} {R : α → β → Prop} {xs : List α} {ys : List β}, Pointwise R xs ys → ∀ x ∈ xs, ∃ y ∈ ys, R x y := by
    intro α β R xs ys h
    induction h with
    | nil => simp
    | cons h _ ih =>
      intro x hx
      rcases List.mem_cons.mp hx with rfl | hx
      · exact ⟨_, List.mem_cons_self, h⟩
      · obtain ⟨y, hy, hr⟩ := ih x hx
        exact ⟨y, List.mem_cons_of_mem _ hy, hr⟩
  obtain ⟨y, hy, hr⟩ := key h2 x hx
  rw [hdd.2 y hy] at hr
  exact hr

/-- C86: with the device dead, a URB addressed to any of its handlers, on any connection, panics that connection's
task: nothing is sent, the tables, the device and all other handlers stay as they are. -/
theorem C86_refused {σ τ} (lib : RusbLib τ) (ifs devs : Nat → Bool) (env : Env σ) (p : Profile)
    (s : Shared (σ × Handle τ)) (x : Conn) (rest : Stream)
    (id : Bytes) (d : Device) (h : Header) (a len b n c : UInt32) (setup data iso : Bytes)
    (call : HCall) (w : WriteRes)
    (hr : readCommand p x.input = .ok (.submit h a len b n c setup data iso, rest))
    (hc : x.current = some id) (hd : amGet id s.used = some d)
    (hcall : Job.call ⟨d, h, len, setup, data⟩ = some call)
    (hh : hostHandler ifs devs call.target = true) (hdead : s.world.user.2.poisoned = true) :
    ∃ s', x.iterate (sharing lib ifs devs env) p s w = (s', { x with input := rest, status := .panicked }) ∧
      s'.used = s.used ∧ s'.available = s.available ∧ s'.world.user = s.world.user ∧
      ∀ o, o ≠ call.target → crashed s'.world o = crashed s.world o := by
  have hs : ∃ s', s.serve (sharing lib ifs devs env) p x.current (.submit h a len b n c setup data iso)
        = (.panic, s', x.current) ∧
      s'.used = s.used ∧ s'.available = s.available ∧ s'.world.user = s.world.user ∧
      ∀ o, o ≠ call.target → crashed s'.world o = crashed s.world o := by
    rw [hc, serve_submit (sharing lib ifs devs env) p s id d h a len b n c setup data iso hd]
    unfold Job.call at hcall
    cases hf : endpointAt d (Job.address ⟨d, h, len, setup, data⟩) with
    | none => simp [hf] at hcall
    | some r =>
      obtain ⟨ep, owner⟩ := r
      simp only [hf] at hcall
      have := submit_eq (sharing lib ifs devs env) p s ⟨d, h, len, setup, data⟩ ep owner hf
      simp only [handleUrb_addressee, hcall] at this
      rw [this]
      cases call with
      | iface h i e l st dt =>
        simp only [hostHandler, HCall.target] at hh
        cases hp : s.world.ifPoisoned h with
        | true => simp [Env.invoke, hp]
        | false =>
          simp only [Env.invoke, hp, sharing, hh, if_true, Handle.locked, hdead, Bool.false_eq_true, if_false]
          refine ⟨_, rfl, rfl, rfl, rfl, fun o ho => ?_⟩
          cases o <;> simp_all [crashed, HCall.target]
      | dev h l st dt =>
        simp only [hostHandler, HCall.target] at hh
        cases hp : s.world.devPoisoned h with
        | true => simp [Env.invoke, hp]
        | false =>
          simp only [Env.invoke, hp, sharing, hh, if_true, Handle.locked, hdead, Bool.false_eq_true, if_false]
          refine ⟨_, rfl, rfl, rfl, rfl, fun o ho => ?_⟩
          cases o <;> simp_all [crashed, HCall.target]
  obtain ⟨s', h1, h2⟩ := hs
  refine ⟨s', ?_, h2⟩
  unfold Conn.iterate
  rw [hr]; simp only [h1]

/-- C86: a request for which libusb claims to have read more than it was asked for panics the task of the connection it
came on: nothing is sent, that call is the last one made on the device, which is dead from then on; of everything else
in the server only the handler the request went to is affected. -/
theorem C86_kills {σ τ} (lib : RusbLib τ) (ifs devs : Nat → Bool) (env : Env σ) (p : Profile)
    (s : Shared (σ × Handle (τ × List LibCall))) (x : Conn) (rest : Stream)
    (id : Bytes) (d : Device) (h : Header) (a len b n c : UInt32) (setup data iso : Bytes)
    (call : HCall) (l : LibCall) (w : WriteRes)
    (hr : readCommand p x.input = .ok (.submit h a len b n c setup data iso, rest))
    (hc : x.current = some id) (hd : amGet id s.used = some d)
    (hcall : Job.call ⟨d, h, len, setup, data⟩ = some call)
    (hop : (hostOp ifs devs call : Option (HostOp Empty)) = some (.lib l)) (hcr : crashed s.world call.target = false)
    (hlive : s.world.user.2.poisoned = false) (hover : l.Overlong lib s.world.user.2.dev.1) :
    ∃ s', x.iterate (sharing (watchLib lib) ifs devs env) p s w = (s', { x with input := rest, status := .panicked }) ∧
      s'.used = s.used ∧ s'.available = s.available ∧ s'.world.user.1 = s.world.user.1 ∧
      s'.world.user.2 = ⟨(l.after lib s.world.user.2.dev.1, s.world.user.2.dev.2 ++ [l]), true⟩ ∧
      ∀ o, crashed s'.world o = (decide (o = call.target) || crashed s.world o) := by
  have hs : ∃ s', s.serve (sharing (watchLib lib) ifs devs env) p x.current (.submit h a len b n c setup data iso)
        = (.panic, s', x.current) ∧
      s'.used = s.used ∧ s'.available = s.available ∧ s'.world.user.1 = s.world.user.1 ∧
      s'.world.user.2 = ⟨(l.after lib s.world.user.2.dev.1, s.world.user.2.dev.2 ++ [l]), true⟩ ∧
      ∀ o, crashed s'.world o = (decide (o = call.target) || crashed s.world o) := by
    rw [hc, serve_submit (sharing (watchLib lib) ifs devs env) p s id d h a len b n c setup data iso hd]
    unfold Job.call at hcall
    cases hf : endpointAt d (Job.address ⟨d, h, len, setup, data⟩) with
    | none => simp [hf] at hcall
    | some r =>
      obtain ⟨ep, owner⟩ := r
      simp only [hf] at hcall
      have := submit_eq (sharing (watchLib lib) ifs devs env) p s ⟨d, h, len, setup, data⟩ ep owner hf
      simp only [handleUrb_addressee, hcall] at this
      rw [this]
      obtain ⟨avail, used, ⟨⟨u1, ⟨⟨t, log⟩, dead⟩⟩, ip, dp⟩⟩ := s
      dsimp only at hlive hover ⊢
      subst hlive
      cases call with
      | iface h i e l' st dt =>
        simp only [hostOp] at hop
        split at hop
        · next hh =>
          cases hi : ifaceCall e l' st dt with
          | none => simp [hi] at hop
          | some l2 =>
            simp only [hi, Option.some.injEq, HostOp.lib.injEq] at hop
            subst hop
            simp only [crashed, HCall.target] at hcr
            have hany := rusbIface_any lib e l' st dt t log
            rw [hi] at hany
            dsimp only at hany
            rw [if_pos hover] at hany
            simp only [Env.invoke, hcr, sharing, hh, if_true, Handle.locked, Bool.false_eq_true, if_false, hany]
            refine ⟨_, rfl, rfl, rfl, rfl, by simp, fun o => ?_⟩
            cases o with
            | iface k => by_cases e : k = h <;> simp [crashed, HCall.target, e]
            | dev k => simp [crashed, HCall.target]
        · simp at hop
      | dev h l' st dt =>
        simp only [hostOp] at hop
        split at hop
        · next hh =>
          simp only [Option.some.injEq, HostOp.lib.injEq] at hop
          subst hop
          simp only [crashed, HCall.target] at hcr
          have hany := rusbDev_any lib l' st dt t log
          rw [if_pos hover] at hany
          simp only [Env.invoke, hcr, sharing, hh, if_true, Handle.locked, Bool.false_eq_true, if_false, hany]
          refine ⟨_, rfl, rfl, rfl, rfl, by simp, fun o => ?_⟩
          cases o with
          | dev k => by_cases e : k = h <;> simp [crashed, HCall.target, e]
          | iface k => simp [crashed, HCall.target]
        · simp at hop
  obtain ⟨s', h1, h2⟩ := hs
  refine ⟨s', ?_, h2⟩
  unfold Conn.iterate
  rw [hr]; simp only [h1]

namespace Samples

/-- A libusb that says it has read one byte more than it was asked for. -/
def boastful : RusbLib Nat := { sampleLib with readBulk := fun _ n s => (some (n + 1, fun _ => 9), s + 1) }

/-- One client using device "1-1" (interface handler 0) and, with the same handle, device "1-2" (device handler 4): a
bulk poll, which crashes; then another client, of the other device. -/
def boastfulHistory : List (HostedEvent Nat Nat) :=
  [.server (.connect 0 ⟨wireCmd (.reqImport 0 busA)
      ++ wireCmd (.submit ⟨1, 1, 65538, 0, 2⟩ 0 3 0 0 0 [0, 0, 0, 0, 0, 0, 0, 0] [1, 2, 3] [])
      ++ wireCmd (.submit ⟨1, 2, 65538, 1, 1⟩ 0 4 0 0 0 [0, 0, 0, 0, 0, 0, 0, 0] [] []), .unexpectedEof⟩),
   .server (.iterate 0 .full), .server (.iterate 0 .full), .server (.iterate 0 .full), .app 100,
   .server (.connect 1 ⟨wireCmd (.reqImport 0 busB)
      ++ wireCmd (.submit ⟨1, 3, 65538, 1, 0⟩ 0 4 0 0 0 [0xC0, 0, 0, 0, 0, 0, 4, 0] [] []), .unexpectedEof⟩),
   .server (.iterate 1 .full), .server (.iterate 1 .full)]

end Samples

/-- Test: two libusb calls; the second crashes the first client, and the second client, of another handler, with a
request libusb would have answered, is crashed without a call. -/
example :
    let env' := sharing (watchLib boastful) (fun h => h = 0 ∨ h = 1) (fun h => h = 4) env
    let s : Sys (Nat × Handle (Nat × List LibCall)) :=
      ⟨⟨[devA, devB], [], ⟨(0, ⟨(0, []), false⟩), fun _ => false, fun _ => false⟩⟩, fun _ => none⟩
    let t := hostTrace env' (actOn (· + ·)) (fun h => h = 0 ∨ h = 1) (fun h => h = 4) release s boastfulHistory
    let s' := s.run env' release (boastfulHistory.map (HostedEvent.event (actOn (· + ·))))
    libCalls (t.map Prod.fst) = [.writeInterrupt 0x02 [1, 2, 3], .readBulk 0x81 4, .readControl 0xC0 0 0 0 4] ∧
    (t.filterMap Prod.snd).map Sent.data = [[], [], []] ∧
    s'.shared.world.user.2 = ⟨(102, [.writeInterrupt 0x02 [1, 2, 3], .readBulk 0x81 4]), true⟩ ∧
    (s'.conns 0).map Conn.status = some .panicked ∧ (s'.conns 1).map Conn.status = some .panicked := by
  decide +kernel

/-! ## Step by step -/

/-- The step that calls libusb, and the one that takes the part of the buffer that has been filled, together are
the handler. -/
theorem usbCall_spec {τ} (lib : RusbLib τ) (c : HCall) (t : τ) :
    (∃ t', usbCall lib c t = (.done (.ok []), t') ∧ usbAnswer lib c t = (.ok [], t')) ∨
    ∃ n r t', usbCall lib c t = (.read n r, t') ∧ usbAnswer lib c t = (sliceResult n r, t') := by
  cases c with
  | iface h i e l s d =>
    simp only [usbCall, usbAnswer, ifaceUsb, rusbIface]
    split
    · cases e.direction with
      | «in» => exact Or.inr ⟨_, _, _, rfl, rfl⟩
      | out => exact Or.inl ⟨_, rfl, rfl⟩
    · split
      · cases e.direction with
        | «in» => exact Or.inr ⟨_, _, _, rfl, rfl⟩
        | out => exact Or.inl ⟨_, rfl, rfl⟩
      · split
        · cases e.direction with
          | «in» => exact Or.inr ⟨_, _, _, rfl, rfl⟩
          | out => exact Or.inl ⟨_, rfl, rfl⟩
        · exact Or.inl ⟨_, rfl, rfl⟩
  | dev h l s d =>
    simp only [usbCall, usbAnswer, devUsb, rusbDev]
    split
    · exact Or.inl ⟨_, rfl, rfl⟩
    · exact Or.inr ⟨_, _, _, rfl, rfl⟩

/-- The points a libusb handler gets to. -/
theorem hostCode_at {σ τ} {host : HandlerId → Option HandlerId} {lib : HandlerId → RusbLib τ} {code : Code σ}
    {c : HCall} {o : HandlerId} {s : σ × Handle τ} {l : (hostCode host lib code).Local} {v : σ × Handle τ}
    (h : Goes (hostCode host lib code) (.inl (o, .start c)) s l v) :
    (l = .inl (o, .start c) ∧ v = s) ∨
    (l = .inl (o, .locked c) ∧ v = s ∧ s.2.poisoned = false) ∨
    (∃ n r, l = .inl (o, .read n r) ∧ v.1 = s.1 ∧ s.2.poisoned = false ∧
      usbAnswer (lib o) c s.2.dev = (sliceResult n r, v.2.dev)) ∨
    (∃ r, l = .inl (o, .done r) ∧ v.1 = s.1 ∧ s.2.locked (usbAnswer (lib o) c) = (r, v.2)) := by
  induction h with
  | refl => exact Or.inl ⟨rfl, rfl⟩
  | tail h hr ih =>
    rename_i l' v'
    rcases ih with ⟨rfl, rfl⟩ | ⟨rfl, rfl, hp⟩ | ⟨n, r, rfl, h1, hp, h2⟩ | ⟨r, rfl, _, _⟩
    · cases hp : v'.2.poisoned with
      | true =>
        have e : (hostCode host lib code).step (.inl (o, .start c)) v' = (.inl (o, .done .panic), v') := by
          simp [hostCode, hostStep, hp]
        rw [e]
        exact Or.inr (Or.inr (Or.inr ⟨_, rfl, rfl, by simp [Handle.locked, hp]⟩))
      | false =>
        have e : (hostCode host lib code).step (.inl (o, .start c)) v' = (.inl (o, .locked c), v') := by
          simp [hostCode, hostStep, hp]
        rw [e]
        exact Or.inr (Or.inl ⟨rfl, rfl, rfl⟩)
    · rcases usbCall_spec (lib o) c v'.2.dev with ⟨t', e1, e2⟩ | ⟨n, r, t', e1, e2⟩
      · have e : (hostCode host lib code).step (.inl (o, .locked c)) v'
            = (.inl (o, .done (.ok [])), (v'.1, { v'.2 with dev := t' })) := by
          simp [hostCode, hostStep, e1]
        rw [e]
        exact Or.inr (Or.inr (Or.inr ⟨_, rfl, rfl, by simp [Handle.locked, hp, e2]⟩))
      · have e : (hostCode host lib code).step (.inl (o, .locked c)) v'
            = (.inl (o, .read n r), (v'.1, { v'.2 with dev := t' })) := by
          simp [hostCode, hostStep, e1]
        rw [e]
        exact Or.inr (Or.inr (Or.inl ⟨n, r, rfl, rfl, hp, e2⟩))
    · have e : (hostCode host lib code).step (.inl (o, .read n r)) v'
          = (.inl (o, .done (sliceResult n r)), (v'.1, { v'.2 with poisoned := decide (sliceResult n r = .panic) })) := rfl
      rw [e]
      exact Or.inr (Or.inr (Or.inr ⟨_, rfl, h1, by simp [Handle.locked, hp, h2]⟩))
    · simp [hostCode] at hr

/-- The other handlers run as they would alone. -/
theorem hostCode_other {σ τ} {host : HandlerId → Option HandlerId} {lib : HandlerId → RusbLib τ} {code : Code σ}
    {l₀ : code.Local} {s : σ × Handle τ} {l : (hostCode host lib code).Local} {v : σ × Handle τ}
    (h : Goes (hostCode host lib code) (.inr l₀) s l v) :
    ∃ l', l = .inr l' ∧ Goes code l₀ s.1 l' v.1 ∧ v.2 = s.2 := by
  induction h with
  | refl => exact ⟨_, rfl, .refl _ _, rfl⟩
  | tail h hr ih =>
    obtain ⟨l', rfl, hg, h2⟩ := ih
    exact ⟨_, rfl, .tail hg hr, h2⟩

/-- C86: run without interruption, the steps of src/host.rs do what `hostEnv` says, with any other handlers beside
them; so everything that is proved of servers with handler code step by step (C75, C81, C84) applies. -/
theorem C86_behaves {σ τ} (host : HandlerId → Option HandlerId) (lib : HandlerId → RusbLib τ) (code : Code σ)
    (env : Env (HandlerId → σ)) (hb : Behaves code env) :
    Behaves (hostCode host lib code) (hostEnv host lib env) := by
  intro c u l v r hg hr
  have hans : c.answer (hostEnv host lib env) u = hostAnswer host lib env c u := by cases c <;> rfl
  rw [hans]
  unfold hostAnswer
  cases hh : host c.target with
  | some o =>
    have hobj : (hostCode host lib code).obj c.target = o := by simp [hostCode, hh]
    have hst : (hostCode host lib code).start c = .inl (o, .start c) := by simp [hostCode, hh]
    rw [hst, hobj] at hg
    rcases hostCode_at hg with ⟨rfl, rfl⟩ | ⟨rfl, _, _⟩ | ⟨n, r', rfl, _⟩ | ⟨r', rfl, h1, h2⟩
    · simp [hostCode] at hr
    · simp [hostCode] at hr
    · simp [hostCode] at hr
    · simp only [hostCode, Option.some.injEq] at hr
      subst hr
      dsimp only
      rw [hobj, h2, ← h1]
  | none =>
    have hobj : (hostCode host lib code).obj c.target = code.obj c.target := by simp [hostCode, hh]
    have hst : (hostCode host lib code).start c = .inr (code.start c) := by simp [hostCode, hh]
    rw [hst, hobj] at hg
    obtain ⟨l', rfl, h1, h2⟩ := hostCode_other hg
    have := hb c (fun o => (u o).1) l' v.1 r h1 hr
    rw [hobj]
    dsimp only
    rw [this]
    refine Prod.ext rfl (funext fun o => ?_)
    by_cases e : o = code.obj c.target
    · subst e; simp [upd, ← h2]
    · simp [upd, e]

/-- C86: ... and they always return. -/
theorem C86_returns {σ τ} (host : HandlerId → Option HandlerId) (lib : HandlerId → RusbLib τ) (code : Code σ)
    (hret : Returns code) : Returns (hostCode host lib code) := by
  intro c s
  cases hh : host c.target with
  | some o =>
    have hst : (hostCode host lib code).start c = .inl (o, .start c) := by simp [hostCode, hh]
    rw [hst]
    have g0 : Goes (hostCode host lib code) (.inl (o, .start c)) s (.inl (o, .start c)) s := .refl _ _
    have g1 := Goes.tail g0 rfl
    cases hp : s.2.poisoned with
    | true =>
      refine ⟨_, _, g1, .panic, ?_⟩
      simp [hostCode, hostStep, hp]
    | false =>
      have e1 : (hostCode host lib code).step (.inl (o, .start c)) s = (.inl (o, .locked c), s) := by
        simp [hostCode, hostStep, hp]
      rw [e1] at g1
      have g2 := Goes.tail g1 rfl
      rcases usbCall_spec (lib o) c s.2.dev with ⟨t', e, _⟩ | ⟨n, r, t', e, _⟩
      · refine ⟨_, _, g2, .ok [], ?_⟩
        simp [hostCode, hostStep, e]
      · have e2 : (hostCode host lib code).step (.inl (o, .locked c)) s
            = (.inl (o, .read n r), (s.1, { s.2 with dev := t' })) := by
          simp [hostCode, hostStep, e]
        rw [e2] at g2
        exact ⟨_, _, .tail g2 rfl, sliceResult n r, rfl⟩
  | none =>
    have hst : (hostCode host lib code).start c = .inr (code.start c) := by simp [hostCode, hh]
    rw [hst]
    obtain ⟨l, v, hg, r, hr⟩ := hret c s.1
    have : ∀ l v, Goes code (code.start c) s.1 l v →
        Goes (hostCode host lib code) (.inr (code.start c)) s (.inr l) (v, s.2) := by
      intro l v hg
      induction hg with
      | refl => exact .refl _ _
      | tail h hr ih => exact .tail ih hr
    exact ⟨_, _, this l v hg, r, hr⟩

/-- C86: at no moment are two tasks in the code of handlers of one shared device, whatever the interleaving: between
locking the handle and the end of the function no other handler makes a libusb call on it; nor does the application use the handle. -/
theorem C86_exclusive {σ τ} (host : HandlerId → Option HandlerId) (lib : HandlerId → RusbLib τ) (code : Code σ)
    (env : Env (HandlerId → σ)) (hb : Behaves code env) (p : Profile) (devices : List Device)
    (w : World (HandlerId → σ × Handle τ)) (ls : List (TcpLabel (HandlerId → σ × Handle τ)))
    (s : Whole (hostCode host lib code))
    (h : Whole.Reach (hostCode host lib code) (hostEnv host lib env) p (Whole.init _ devices w) ls s)
    (o : HandlerId) (t : Nat) (i : Inside (hostCode host lib code)) (ht : s.fine.inside t = some i)
    (hi : host i.call.target = some o) :
    (∀ u j, s.fine.inside u = some j → host j.call.target = some o → u = t) ∧
    ∀ a e, s.fine.app a ≠ some (o, e) := by
  have hobj : ∀ {x : HandlerId}, host x = some o → (hostCode host lib code).obj x = o := fun hx => by
    simp [hostCode, hx]
  obtain ⟨h1, h2, _⟩ := C81_exclusive _ _ (C86_behaves host lib code env hb) p devices w ls s h
  refine ⟨fun u j hu hj => h1 u t j i hu ht (by rw [hobj hi, hobj hj]), fun a e => ?_⟩
  have := h2 t i a e ht
  rw [hobj hi] at this
  exact this

/-- C86: whatever the interleaving, a handle nobody is using is as if the requests had been served one at a time, in the order in
which they have taken effect. -/
theorem C86_serial {σ τ} (host : HandlerId → Option HandlerId) (lib : HandlerId → RusbLib τ) (code : Code σ)
    (env : Env (HandlerId → σ)) (hb : Behaves code env) (p : Profile) (devices : List Device)
    (w : World (HandlerId → σ × Handle τ)) (ls : List (TcpLabel (HandlerId → σ × Handle τ)))
    (s : Whole (hostCode host lib code))
    (h : Whole.Reach (hostCode host lib code) (hostEnv host lib env) p (Whole.init _ devices w) ls s)
    (o : HandlerId) (ho : s.fine.free o) :
    (s.fine.cfg.shared.world.user o).2 =
      (((Net.init devices w).run (hostEnv host lib env) p (ls.filterMap tcpEvent)).sys.shared.world.user o).2 := by
  rw [(C81_explained _ _ (C86_behaves host lib code env hb) p devices w ls s h).1 o ho]

namespace Samples

/-- A handle shared by interface handlers 0 and 1 and device handler 4. -/
def oneHandle : HandlerId → Option HandlerId
  | .iface 0 | .iface 1 | .dev 4 => some (.iface 0)
  | _ => none

/-- Two clients have imported two devices and each has sent a submit. -/
def twoSharing : List (NetEvent (HandlerId → Nat × Handle Nat)) :=
  [.connect 0, .arrive 0 (wireCmd (.reqImport 0 busA)), .iterate 0 .full,
   .connect 1, .arrive 1 (wireCmd (.reqImport 0 busB)), .iterate 1 .full,
   .arrive 0 (wireCmd (.submit hdrIn 0 64 0 0 0 [0, 0, 0, 0, 0, 0, 0, 0] [] [])),
   .arrive 1 (wireCmd (.submit ⟨1, 1, 65538, 1, 0⟩ 0 18 0 0 0 [0xC0, 6, 0, 1, 0, 0, 18, 0] [] []))]

/-- Nothing has happened yet. -/
def handleWorld : World (HandlerId → Nat × Handle Nat) := ⟨fun _ => (0, ⟨0, false⟩), fun _ => false, fun _ => false⟩

end Samples

/-- Of `C86_exclusive`: a task inside the code of interface handler 0, with the other client about to submit to device
handler 4 of another device, with the same handle. -/
example : ∃ ls, ∃ s : Whole (hostCode oneHandle (fun _ => sampleLib) adder), ∃ i,
    Whole.Reach (hostCode oneHandle (fun _ => sampleLib) adder) (hostEnv oneHandle (fun _ => sampleLib) adderEnv) dev
      (Whole.init _ [devA, devB] handleWorld) ls s ∧
    s.fine.inside 0 = some i ∧ oneHandle i.call.target = some (.iface 0) ∧
    (s.fine.cfg.conns 1).map (fun x => (x.status, (x.call dev s.fine.cfg.shared.used).map HCall.target))
      = some (.running, some (.dev 4)) ∧ oneHandle (.dev 4) = some (.iface 0) := by
  have hb := C86_behaves oneHandle (fun _ => sampleLib) adder adderEnv adder_behaves
  have hret := C86_returns oneHandle (fun _ => sampleLib) adder adder_returns
  obtain ⟨ls, s, hr, hfl, hsub, hsh, hend, hgot, hcn⟩ :=
    C79_realised (hostEnv oneHandle (fun _ => sampleLib) adderEnv) dev [devA, devB] handleWorld twoSharing
  have hq : ∀ l, s.cfg.queue l = [] := tcp_queue hr hfl
  generalize hn : (Net.init [devA, devB] handleWorld).run (hostEnv oneHandle (fun _ => sampleLib) adderEnv) dev twoSharing
    = n at *
  have f0 : (n.sys.conns 0).map (fun x => (x.status, (x.call dev n.sys.shared.used).map HCall.target))
      = some (.running, some (.iface 0)) := by subst hn; decide +kernel
  have f1 : (n.sys.conns 1).map (fun x => (x.status, (x.call dev n.sys.shared.used).map HCall.target))
      = some (.running, some (.dev 4)) := by subst hn; decide +kernel
  have fc : crashed n.sys.shared.world (.iface 0) = false := by subst hn; decide +kernel
  rw [← hcn 0] at f0
  rw [← hcn 1] at f1
  simp only [Option.map_map, Option.map_eq_some_iff, Function.comp_apply, Prod.mk.injEq] at f0 f1
  obtain ⟨x0, h0, r0, k0, c0, t0⟩ := f0
  obtain ⟨x1, h1, r1, k1, c1, t1⟩ := f1
  rw [← hsh] at c0 c1 fc
  -- what has arrived is read
  obtain ⟨⟨shared, conns, flights, queue⟩, buf, ended, got⟩ := s
  dsimp only at *
  have idle : ∀ cs c, (⟨shared, cs, flights, queue⟩ : Cfg (HandlerId → Nat × Handle Nat)).idle c :=
    fun cs c t f h => by dsimp only at h; rw [hfl t] at h; simp at h
  have q0 := hr.trans (take_all _ dev _ 0 x0 h0 (idle _ _))
  have q1 := q0.trans (take_all _ dev _ 1 x1 (by simpa [setConn] using h1) (idle _ _))
  have b1 : (upd buf 0 []) 1 = buf 1 := by simp [upd]
  dsimp only at q1
  rw [b1] at q1
  obtain ⟨S, q2, hS, hin, hap⟩ := lift_all hb hret q1 (fun f cr hf => by
    have hm := List.mem_filterMap.mpr ⟨_, hf, (rfl : tcpEvent (.server (.outside (.user f cr))) = some (.user f cr))⟩
    simp only [List.filterMap_append, List.mem_append] at hm
    simp only [tcpEvent, List.filterMap_cons, List.filterMap_nil, List.not_mem_nil, or_false] at hm
    have := hsub.subset hm
    simp [twoSharing, live] at this)
  obtain ⟨⟨cfg, inside, app⟩, sbuf, sended, sgot⟩ := S
  simp only [Whole.tcp, Tcp.mk.injEq] at hS
  obtain ⟨rfl, rfl, rfl, rfl⟩ := hS
  have call0 : Conn.call dev { x0 with input := ⟨x0.input.bytes ++ buf 0, x0.input.fin⟩ } shared.used = some k0 := by
    rw [← c0]
    exact (call_fin dev { x0 with input := ⟨x0.input.bytes ++ buf 0, x0.input.fin⟩ } _ _).symm
  have call1 : Conn.call dev { x1 with input := ⟨x1.input.bytes ++ buf 1, x1.input.fin⟩ } shared.used = some k1 := by
    rw [← c1]
    exact (call_fin dev { x1 with input := ⟨x1.input.bytes ++ buf 1, x1.input.fin⟩ } _ _).symm
  obtain ⟨l3, f3, i, q3, hi3, ho3, hh3, _⟩ := C81_enter _ _ hb dev [devA, devB] handleWorld _ _ q2 0 0
    { x0 with input := ⟨x0.input.bytes ++ buf 0, x0.input.fin⟩ } k0 (hfl 0) (by simp [setConn]) r0 (idle _ _) (hq _)
    (fun t f h => by dsimp only at h; rw [hfl t] at h; simp at h) call0
    ⟨fun t i h => by have := hin t; dsimp only at this h; rw [this] at h; simp at h,
      fun a e h => by have := hap a; dsimp only at this h; rw [this] at h; simp at h⟩ (by rw [t0]; exact fc)
  refine ⟨_, _, i, q2.trans q3, by simp [upd], by rw [hi3, t0]; rfl, ?_, rfl⟩
  simp only [Cfg.put, setConn, if_true, Option.map_some]
  rw [call1]
  simp [t1, r1]

end Usbip
