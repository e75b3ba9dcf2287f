import Verif.Lemmas.Stall
import Verif.Lemmas.Live
import Verif.Lemmas.Whole
/-! Helper lemmas: handler code that never returns while somebody waits to write the table of used devices (C106). -/

namespace Usbip
open Spec

/-- `waiter_stuck` for one step of the sockets. -/
theorem tcp_waiter_step {σ} {env : Env σ} {p : Profile} {s s' : Tcp σ} {lb : TcpLabel σ} {l : Lk} {u t : Nat}
    {g f : Flight σ} {k : Task σ} (hu : s.cfg.flights u = some g) (hg : g.held l ≠ none)
    (ht : s.cfg.flights t = some f) (hw : f.waiting = true) (hk : f.code = .lock l .w k)
    (st : Tcp.Step env p s lb s') (hnu : ∀ b, lb = .server b → prog b ≠ some u)
    (hnt : ∀ o, lb ≠ .server (.dropped t o)) :
    s'.cfg.flights u = some g ∧ s'.cfg.flights t = some f ∧ ∀ b, lb = .server b → prog b ≠ some t := by
  have ne : ∀ v, s.cfg.flights v = none → u ≠ v ∧ t ≠ v := fun v hv =>
    ⟨fun e => (by subst e; rw [hu] at hv; cases hv), fun e => (by subst e; rw [ht] at hv; cases hv)⟩
  cases st with
  | connect c h => exact ⟨hu, ht, fun b hb => by cases hb; simp [prog]⟩
  | arrive c bs h he => exact ⟨hu, ht, fun b hb => by cases hb⟩
  | hangup c e h he => exact ⟨hu, ht, fun b hb => by cases hb⟩
  | take c x bs rest hc hi hb => exact ⟨hu, ht, fun b hb => by cases hb⟩
  | piece v c h k' y bs hv ho hk' hy hp => exact ⟨hu, ht, fun b hb => by cases hb⟩
  | iterate v c w x hv hc hr hi hd =>
    refine ⟨(upd_ne _ _ (ne v hv).1).trans hu, (upd_ne _ _ (ne v hv).2).trans ht, fun b hb => ?_⟩
    cases hb
    simp only [prog, ne_eq, Option.some.injEq]
    exact fun e => (ne v hv).2 e.symm
  | iterateEnd v c w x e hv hc hr hi he hb =>
    refine ⟨(upd_ne _ _ (ne v hv).1).trans hu, (upd_ne _ _ (ne v hv).2).trans ht, fun b hb => ?_⟩
    cases hb
    simp only [prog, ne_eq, Option.some.injEq]
    exact fun e => (ne v hv).2 e.symm
  | sent v c h k' y hv ho hk' hy hp =>
    have h1 : u ≠ v := fun e => hnu _ rfl (by simp [prog, e])
    have h2 : t ≠ v := fun e => by subst e; rw [ht] at hv; cases hv; rw [hk] at hk'; cases hk'
    refine ⟨(upd_ne _ _ h1).trans hu, (upd_ne _ _ h2).trans ht, fun b hb => ?_⟩
    cases hb
    simp only [prog, ne_eq, Option.some.injEq]
    exact fun e => h2 e.symm
  | other lb cfg' st h1 h2 h3 =>
    obtain ⟨a1, a2, a3⟩ := waiter_stuck hu hg ht hw hk (.tail .refl st)
      (fun b hb => by simp only [List.nil_append, List.mem_singleton] at hb; subst hb; exact hnu _ rfl)
      (fun o hm => by simp only [List.nil_append, List.mem_singleton] at hm; exact hnt o (by rw [hm]))
    exact ⟨a1, a2, fun b hb => by cases hb; exact a3 _ (by simp)⟩

/-- `Frozen.step` for the sockets; nothing reaches the client. -/
theorem Frozen.tcp {σ} {env : Env σ} {p : Profile} {s s' : Tcp σ} {lb : TcpLabel σ} {t c : Nat} {out : Bytes}
    (hF : Frozen t c out s.cfg) (hQ : QInv s.cfg) (st : Tcp.Step env p s lb s') (ht : ∀ b, lb = .server b → prog b ≠ some t) :
    Frozen t c out s'.cfg ∧ s'.got c = s.got c := by
  cases st with
  | connect c' h => exact ⟨hF.step hQ (Cfg.Step.connect (env := env) (p := p) _ c' _ h) (ht _ rfl), rfl⟩
  | arrive c' bs h he => exact ⟨hF, rfl⟩
  | hangup c' e h he => exact ⟨hF, rfl⟩
  | take c' x bs rest hc hi hb =>
    refine ⟨⟨hF.ahead, hF.mute, ?_⟩, rfl⟩
    rw [← hF.sent]
    unfold sentTo setConn
    by_cases e : c = c'
    · subst e; simp [hc]
    · simp [e]
  | piece v c' h k' y bs hv ho hk' hy hp =>
    refine ⟨hF, ?_⟩
    by_cases e : c = c'
    · subst e
      have := (hF.mute v h hv ho).2
      rw [hk'] at this
      exact absurd this id
    · exact upd_ne _ _ e
  | iterate v c' w x hv hc hr hi hd =>
    exact ⟨hF.step hQ (Cfg.Step.iterate (env := env) (p := p) _ v c' w x hv hc hr hi) (ht _ rfl), rfl⟩
  | iterateEnd v c' w x e hv hc hr hi he hb =>
    have notIn : ∀ l, v ∉ s.cfg.queue l := fun l hm => by
      obtain ⟨f, _, _, hf, _⟩ := (hQ.queue l v).1 hm
      rw [hv] at hf; cases hf
    obtain ⟨pre, post, hq, hpre⟩ := hF.ahead
    refine ⟨⟨⟨pre, post, hq, fun v' hv' f hf => ?_⟩, fun v' f hf ho => ?_, hF.sent⟩, rfl⟩
    · have hne : v' ≠ v := fun e => notIn .used (by rw [hq, ← e]; simp [hv'])
      exact hpre v' hv' f ((upd_ne _ _ hne).symm.trans hf)
    · by_cases hne : v' = v
      · subst hne
        have : some f = _ := hf.symm.trans (upd_self _ _ _)
        cases this
        simp only [Flight.start, Option.some.injEq] at ho
        subst ho
        refine ⟨rfl, ?_⟩
        have ho : x.output = out := by rw [← hF.sent]; unfold sentTo; rw [hc]
        rw [← ho]
        exact iterTask_Mute env p { x with input := ⟨x.input.bytes, e⟩ } w
      · exact hF.mute v' f ((upd_ne _ _ hne).symm.trans hf) ho
  | sent v c' h k' y hv ho hk' hy hp =>
    exact ⟨hF.step hQ (Cfg.Step.send (env := env) (p := p) _ v h k' hv hk') (ht _ rfl), rfl⟩
  | other lb cfg' st h1 h2 h3 => exact ⟨hF.step hQ st (ht _ rfl), rfl⟩

/-- A program that is inside handler code that never returns stays there, and does nothing that can be seen. -/
theorem inside_stays {τ} {code : Code τ} {env : Env (HandlerId → τ)} {p : Profile} {s s' : Whole code}
    {lb : Option (TcpLabel (HandlerId → τ))} (hI : MInv env s.fine) (st : Whole.Step code env p s lb s') {u : Nat} {i : Inside code}
    (hi : s.fine.inside u = some i) (hn : ∀ l v, Goes code (code.start i.call) i.entry l v → code.result l = none) :
    (∃ j, s'.fine.inside u = some j ∧ j.call = i.call ∧ j.entry = i.entry) ∧
    ∀ b, lb = some (.server b) → prog b ≠ some u := by
  have other : ∀ {v : Nat}, s.fine.inside v = none → u ≠ v := fun hv e => by subst e; rw [hi] at hv; cases hv
  cases st with
  | socket lb a st hl ho =>
    refine ⟨⟨i, hi, rfl, rfl⟩, fun b hb hp => ?_⟩
    cases hb
    rw [ho b u rfl hp] at hi; cases hi
  | handler lb f st hl =>
    cases st with
    | outer lb cfg' st ho hu he =>
      refine ⟨⟨i, hi, rfl, rfl⟩, fun b hb hp => ?_⟩
      simp only [Option.map_some, Option.some.injEq, TcpLabel.server.injEq] at hb
      subst hb
      rw [ho u hp] at hi; cases hi
    | enter t' f g k c cont ht hk hc hr hi' hf hp => exact ⟨⟨i, (upd_ne _ _ (other hi')).trans hi, rfl, rfl⟩, fun b hb => by cases hb⟩
    | poisoned t' f g k c cont ht hk hc hr hi' hp =>
      refine ⟨⟨i, hi, rfl, rfl⟩, fun b hb hp => ?_⟩
      simp only [Option.map_some, Option.some.injEq, TcpLabel.server.injEq] at hb
      subst hb
      simp only [prog, Option.some.injEq] at hp
      exact other hi' hp.symm
    | work t' i' ht' hr' =>
      refine ⟨?_, fun b hb => by cases hb⟩
      by_cases e : u = t'
      · subst e
        rw [hi] at ht'; cases ht'
        exact ⟨_, upd_self _ _ _, rfl, rfl⟩
      · exact ⟨i, (upd_ne _ _ e).trans hi, rfl, rfl⟩
    | leave t' f i' r ht' hf hr' =>
      have e : u ≠ t' := by
        rintro rfl
        rw [hi] at ht'; cases ht'
        rw [hn _ _ (hI.goes u i hi)] at hr'; cases hr'
      refine ⟨⟨i, (upd_ne _ _ e).trans hi, rfl, rfl⟩, fun b hb hp => ?_⟩
      simp only [Option.map_some, Option.some.injEq, TcpLabel.server.injEq] at hb
      subst hb
      simp only [prog, Option.some.injEq] at hp
      exact e hp.symm
    | appEnter a o ha hf => exact ⟨⟨i, hi, rfl, rfl⟩, fun b hb => by cases hb⟩
    | appWork a o e v ha => exact ⟨⟨i, hi, rfl, rfl⟩, fun b hb => by cases hb⟩
    | appLeave a o e ha => exact ⟨⟨i, hi, rfl, rfl⟩, fun b hb => by cases hb; simp [prog]⟩
    | appCrash a o e ha => exact ⟨⟨i, hi, rfl, rfl⟩, fun b hb => by cases hb; simp [prog]⟩
    | appPanic o hf => exact ⟨⟨i, hi, rfl, rfl⟩, fun b hb => by cases hb; simp [prog]⟩

/-- Nothing reaches the client of a command that is not at its reply. -/
theorem got_still {σ} {env : Env σ} {p : Profile} {devices : List Device} {w : World σ} {ls : List (TcpLabel σ)} {s s' : Tcp σ}
    {lb : TcpLabel σ} (hT : TInv env p devices w ls s) (st : Tcp.Step env p s lb s') {v c : Nat} {f : Flight σ}
    (hv : s.cfg.flights v = some f) (ho : f.owner = some c) (hk : ∀ k, f.code ≠ .send k) : s'.got c = s.got c := by
  cases st with
  | piece v' c' h k' y bs hv' ho' hk' hy hp =>
    by_cases e : c = c'
    · subst e
      cases hT.owners hv hv' ho ho'
      rw [hv] at hv'; cases hv'
      exact absurd hk' (hk _)
    · exact upd_ne _ _ e
  | connect | arrive | hangup | take | iterate | iterateEnd | sent | other => rfl

/-- While program `u` has the table of used devices locked and does not move, and program `t` waits to write it, a connection
that is between two commands, or is yet to be made, is sent nothing. -/
theorem whole_frozen {τ} {code : Code τ} {env : Env (HandlerId → τ)} (hb : Behaves code env) {p : Profile}
    {devices : List Device} {w : World (HandlerId → τ)} {ls0 ls : List (TcpLabel (HandlerId → τ))} {s s' : Whole code}
    (h0 : Whole.Reach code env p (Whole.init code devices w) ls0 s) {u t : Nat} {g f : Flight (HandlerId → τ)}
    {k : Task (HandlerId → τ)} (hg : s.fine.cfg.flights u = some g) (hheld : g.held .used ≠ none)
    (ht : s.fine.cfg.flights t = some f) (hw : f.waiting = true) (hk : f.code = .lock .used .w k)
    (h : Whole.Reach code env p s ls s') (hlab : ∀ b, .server b ∈ ls → prog b ≠ some u) (hnt : ∀ o, .server (.dropped t o) ∉ ls) :
    s'.fine.cfg.flights u = some g ∧ s'.fine.cfg.flights t = some f ∧
    (∀ v h c, v = u ∨ v = t → s.fine.cfg.flights v = some h → h.owner = some c → (∀ k, h.code ≠ .send k) → s'.got c = s.got c) ∧
    ∀ c, s.fine.cfg.idle c → sentTo s'.fine.cfg c = sentTo s.fine.cfg c ∧ s'.got c = s.got c ∧
      ∀ v h, s'.fine.cfg.flights v = some h → h.owner = some c → h.held .used = none := by
  obtain ⟨hI0, w0, hA0, hr0⟩ := whole_reach hb h0
  have hq0 : QInv s.fine.cfg := (TInv.reach hr0).q.congr rfl rfl
  obtain ⟨pre, post, hq⟩ := List.append_of_mem ((hq0.queue .used t).2 ⟨f, .w, k, ht, hw, hk⟩)
  have main : s'.fine.cfg.flights u = some g ∧ s'.fine.cfg.flights t = some f ∧
      (∀ v h c, v = u ∨ v = t → s.fine.cfg.flights v = some h → h.owner = some c → (∀ k, h.code ≠ .send k) → s'.got c = s.got c) ∧
      ∀ c, s.fine.cfg.idle c → Frozen t c (sentTo s.fine.cfg c) s'.fine.cfg ∧ s'.got c = s.got c := by
    induction h with
    | refl =>
      exact ⟨hg, ht, fun _ _ _ _ _ _ _ => rfl, fun c hc => ⟨⟨⟨pre, post, hq, fun v _ f hf => hc v f hf⟩, fun v f hf ho => absurd ho (hc v f hf), rfl⟩, rfl⟩⟩
    | @tail ls s1 lb s2 h1 st ih =>
      obtain ⟨hg1, ht1, hown, hF⟩ := ih (fun b hm => hlab b (by simp [hm])) (fun o hm => hnt o (by simp [hm]))
      obtain ⟨hI, w1, hA, hr⟩ := whole_reach hb (h0.trans h1)
      have hC : Covered env p s1.fine.cfg := fun t f g k ht hk => tcp_covered hr t f g k ht hk
      obtain ⟨_, w2, _, hst⟩ := whole_step hb hC hI st hA
      cases lb with
      | none =>
        have hst : s2.tcp.withWorld w2 = s1.tcp.withWorld w1 := hst
        have e1 : s2.fine.cfg.flights = s1.fine.cfg.flights := congrArg (fun a => a.cfg.flights) hst
        have e2 : s2.fine.cfg.queue = s1.fine.cfg.queue := congrArg (fun a => a.cfg.queue) hst
        have e3 : s2.fine.cfg.conns = s1.fine.cfg.conns := congrArg (fun a => a.cfg.conns) hst
        have e4 : s2.got = s1.got := congrArg (fun a => a.got) hst
        refine ⟨e1 ▸ hg1, e1 ▸ ht1, fun v h c a b d e => by rw [e4]; exact hown v h c a b d e, fun c hc => ?_⟩
        obtain ⟨⟨a, b, d⟩, hgot⟩ := hF c hc
        refine ⟨⟨by rw [e2, e1]; exact a, by rw [e1]; exact b, ?_⟩, by rw [e4]; exact hgot⟩
        unfold sentTo at d ⊢
        rw [e3]; exact d
      | some lb =>
        have hst : Tcp.Step env p (s1.tcp.withWorld w1) lb (s2.tcp.withWorld w2) := hst
        obtain ⟨a1, a2, a3⟩ := tcp_waiter_step (l := .used) (u := u) (t := t) (g := g) (f := f) (k := k) hg1
          hheld ht1 hw hk hst (fun b hb => hlab b (by simp [hb])) (fun o e => hnt o (by simp [e]))
        refine ⟨a1, a2, fun v h c hv hh ho hns => ?_, fun c hc => ?_⟩
        · refine Eq.trans ?_ (hown v h c hv hh ho hns)
          rcases hv with rfl | rfl
          · rw [hg] at hh; cases hh
            exact got_still (TInv.reach hr) hst (v := v) (f := g) hg1 ho hns
          · rw [ht] at hh; cases hh
            exact got_still (TInv.reach hr) hst (v := v) (f := f) ht1 ho hns
        obtain ⟨⟨a, b, d⟩, hgot⟩ := hF c hc
        obtain ⟨⟨a', b', d'⟩, hg'⟩ := Frozen.tcp (s := s1.tcp.withWorld w1) ⟨a, b, d⟩ (TInv.reach hr).q hst a3
        exact ⟨⟨a', b', d'⟩, Eq.trans hg' hgot⟩
  obtain ⟨h1, h2, h4, h3⟩ := main
  exact ⟨h1, h2, h4, fun c hc => ⟨(h3 c hc).1.sent, (h3 c hc).2, fun v h hv ho => ((h3 c hc).1.mute v h hv ho).1⟩⟩

/-- A program that is inside handler code that never returns stays there for ever. -/
theorem inside_path {τ} {code : Code τ} {env : Env (HandlerId → τ)} (hb : Behaves code env) {p : Profile}
    {devices : List Device} {w : World (HandlerId → τ)} {ls0 ls : List (TcpLabel (HandlerId → τ))} {s s' : Whole code}
    (h0 : Whole.Reach code env p (Whole.init code devices w) ls0 s) {u : Nat} {i : Inside code}
    (hi : s.fine.inside u = some i) (hn : ∀ l v, Goes code (code.start i.call) i.entry l v → code.result l = none)
    (h : Whole.Reach code env p s ls s') :
    (∃ j, s'.fine.inside u = some j ∧ j.call = i.call ∧ j.entry = i.entry) ∧ ∀ b, .server b ∈ ls → prog b ≠ some u := by
  induction h with
  | refl => exact ⟨⟨i, hi, rfl, rfl⟩, nofun⟩
  | @tail ls s1 lb s2 h1 st ih =>
    obtain ⟨⟨j, hj, hjc, hje⟩, hl⟩ := ih
    obtain ⟨⟨j', hj', hjc', hje'⟩, hlab⟩ := inside_stays (whole_reach hb (h0.trans h1)).1 st hj (by rw [hjc, hje]; exact hn)
    refine ⟨⟨j', hj', hjc'.trans hjc, hje'.trans hje⟩, fun b hm => ?_⟩
    rcases List.mem_append.1 hm with hm | hm
    · exact hl b hm
    · exact hlab b (Option.mem_toList.1 hm)

/-- While program `u` is inside handler code that never returns and program `t` waits to write the table of used devices,
a connection that is between two commands, or is yet to be made, is sent nothing. -/
theorem whole_freeze {τ} {code : Code τ} {env : Env (HandlerId → τ)} (hb : Behaves code env) {p : Profile}
    {devices : List Device} {w : World (HandlerId → τ)} {ls0 ls : List (TcpLabel (HandlerId → τ))} {s s' : Whole code}
    (h0 : Whole.Reach code env p (Whole.init code devices w) ls0 s) {u t : Nat} {i : Inside code} {f : Flight (HandlerId → τ)}
    {k : Task (HandlerId → τ)} (hi : s.fine.inside u = some i)
    (hn : ∀ l v, Goes code (code.start i.call) i.entry l v → code.result l = none)
    (ht : s.fine.cfg.flights t = some f) (hw : f.waiting = true) (hk : f.code = .lock .used .w k)
    (h : Whole.Reach code env p s ls s') (hnt : ∀ o, .server (.dropped t o) ∉ ls) :
    s'.fine.inside u ≠ none ∧ s'.fine.cfg.flights t = some f ∧
    (∀ v h c, v = u ∨ v = t → s.fine.cfg.flights v = some h → h.owner = some c → s'.got c = s.got c) ∧
    ∀ c, s.fine.cfg.idle c → sentTo s'.fine.cfg c = sentTo s.fine.cfg c ∧ s'.got c = s.got c ∧
      ∀ v h, s'.fine.cfg.flights v = some h → h.owner = some c → h.held .used = none := by
  obtain ⟨hI0, _⟩ := whole_reach hb h0
  obtain ⟨g, _, _, hg, hgk, _, hheld⟩ := hI0.call u i hi
  obtain ⟨⟨j, hj, _⟩, hlab⟩ := inside_path hb h0 hi hn h
  obtain ⟨_, h2, h3, h4⟩ := whole_frozen hb h0 hg (by rw [hheld]; nofun) ht hw hk h hlab hnt
  refine ⟨by rw [hj]; simp, h2, fun v h c hv hh ho => h3 v h c hv hh ho (fun k' e => ?_), h4⟩
  rcases hv with rfl | rfl
  · rw [hg] at hh; cases hh; rw [hgk] at e; cases e
  · rw [ht] at hh; cases hh; rw [hk] at e; cases e

end Usbip
