import Verif.Lemmas.Tcp
import Verif.Spec.Locks
/-! Helper lemmas: on sockets, a program that runs alone. -/

namespace Usbip
open Spec

theorem Tcp.Reach.step {σ} {env : Env σ} {p : Profile} {s s' s'' : Tcp σ} {lb : TcpLabel σ} {ls : List (TcpLabel σ)}
    (st : Tcp.Step env p s lb s') (h : Tcp.Reach env p s' ls s'') : Tcp.Reach env p s (lb :: ls) s'' := by
  induction h with
  | refl => exact .tail .refl st
  | tail _ st' ih => exact .tail ih st'

theorem Tcp.Reach.trans {σ} {env : Env σ} {p : Profile} {s s' s'' : Tcp σ} {ls ls' : List (TcpLabel σ)}
    (h : Tcp.Reach env p s ls s') (h' : Tcp.Reach env p s' ls' s'') : Tcp.Reach env p s (ls ++ ls') s'' := by
  induction h' with
  | refl => rw [List.append_nil]; exact h
  | tail _ st ih => rw [← List.append_assoc]; exact .tail ih st

/-- What the clients have received after a program has left `x`. -/
def gotAfter (got : Nat → Bytes) (owner : Option Nat) (x : Ended) : Nat → Bytes :=
  match owner with
  | none => got
  | some c => upd got c (outOf x.conn?)

/-- A program that runs alone, to its end, with its client reading. -/
theorem tcp_alone {σ} (env : Env σ) (p : Profile) (t : Nat) (conns : Nat → Option Conn) (ev : Event σ)
    (owner : Option Nat) (buf : Nat → Bytes) (ended : Nat → Option ErrKind) (code : Task σ) :
    ∀ (held : Lk → Option Mode) (c d : Bool) (sh : Shared σ) (got : Nat → Bytes),
    code.WL held c d → code.Out (owner.map got) →
    ∃ ls, Tcp.Reach env p ⟨Cfg.lone sh conns t ⟨ev, owner, code, held, false, c⟩, buf, ended, got⟩ ls
        ⟨Cfg.quiet (code.exec sh).1 (finished conns owner (code.exec sh).2), buf, ended,
          gotAfter got owner (code.exec sh).2⟩ ∧
      ls.filterMap tcpEvent = (if c then [] else [live ev]) ∧ ∀ u ev', TcpLabel.server (.start u ev') ∉ ls := by
  induction code with
  | done x =>
    intro held c d sh got h ho
    obtain ⟨rfl, _⟩ := h
    refine ⟨[.server (.ended t)], .step (.other _ _ _ (.finish _ t _ x (Cfg.lone_at _ _ _ _) rfl) (by simp) (by simp)
      (by simp)) ?_, rfl, by simp⟩
    have e1 : ({ (Cfg.lone sh conns t ⟨ev, owner, .done x, held, false, true⟩).put t none with
        conns := finished conns owner x } : Cfg σ) = Cfg.quiet sh (finished conns owner x) := by
      simp only [Cfg.lone, Cfg.put, Cfg.quiet, upd_upd]
      congr 1
      exact upd_eq_self (fun _ => none) t
    have e2 : gotAfter got owner x = got := by
      unfold gotAfter
      cases owner with
      | none => rfl
      | some c =>
        obtain ⟨y, rfl, hy⟩ := ho
        show upd got c y.output = got
        rw [hy]; exact upd_eq_self got c
    show Tcp.Reach env p ⟨{ (Cfg.lone sh conns t ⟨ev, owner, .done x, held, false, true⟩).put t none with
        conns := finished conns owner x }, buf, ended, got⟩ [] ⟨_, buf, ended, gotAfter got owner x⟩
    rw [e1, e2]
    exact .refl
  | lock l m k ih =>
    intro held c d sh got h ho
    obtain ⟨rfl, hl, h⟩ := h
    obtain ⟨ls, hr, he, hns⟩ := ih _ _ _ sh got h ho
    refine ⟨.server (.inner t) :: .server (.inner t) :: ls,
      .step (.other _ _ _ (.request _ t _ l m k (Cfg.lone_at _ _ _ _) rfl rfl) (by simp) (by simp) ?_)
      (.step (.other _ _ _ (.grant _ t ⟨ev, owner, .lock l m k, held, true, false⟩ l m k []
        (by simp [Cfg.lone, Cfg.put, upd_self]) rfl rfl (by simp [upd_self, Cfg.lone]) ?_) (by simp) (by simp) ?_) ?_), ?_⟩
    · intro t' f k' e hf
      cases e
      rw [Cfg.lone_at] at hf; cases hf; simp
    · intro u g hh hu hg
      by_cases e : u = t
      · subst e
        simp only [Cfg.put, upd_self, Option.some.injEq] at hu
        subst hu
        dsimp only at hg; rw [hl] at hg; simp at hg
      · simp [Cfg.put, Cfg.lone, upd_ne _ _ e] at hu
    · intro t' f k' e hf
      cases e
      simp only [Cfg.put, upd_self, Option.some.injEq] at hf
      subst hf; simp
    · simp only [Cfg.lone, Cfg.put, upd_upd] at hr ⊢
      rw [upd_eq_self (fun _ => ([] : List Nat)) l]
      exact hr
    · exact ⟨by simpa [List.filterMap_cons, tcpEvent, Label.event] using he, by simpa using hns⟩
  | unlock l k ih =>
    intro held c d sh got h ho
    obtain ⟨ls, hr, he, hns⟩ := ih _ _ _ sh got h.2.2 ho
    refine ⟨.server (.inner t) :: ls, .step (.other _ _ _ (.unlock _ t _ l k (Cfg.lone_at _ _ _ _) rfl) (by simp) (by simp) ?_) ?_, ?_⟩
    · intro t' f k' e hf
      cases e
      rw [Cfg.lone_at] at hf; cases hf; simp
    · rw [Cfg.lone_put]; exact hr
    · exact ⟨by simpa [List.filterMap_cons, tcpEvent, Label.event] using he, by simpa using hns⟩
  | getUsed k ih =>
    intro held c d sh got h ho
    obtain ⟨ls, hr, he, hns⟩ := ih _ _ _ _ sh got (h.2 sh.used) (ho _)
    refine ⟨.server (.inner t) :: ls, .step (.other _ _ _ (.getUsed _ t _ k (Cfg.lone_at _ _ _ _) rfl) (by simp) (by simp) ?_) ?_, ?_⟩
    · intro t' f k' e hf
      cases e
      rw [Cfg.lone_at] at hf; cases hf; simp
    · rw [Cfg.lone_put]; exact hr
    · exact ⟨by simpa [List.filterMap_cons, tcpEvent, Label.event] using he, by simpa using hns⟩
  | getAvail k ih =>
    intro held c d sh got h ho
    obtain ⟨ls, hr, he, hns⟩ := ih _ _ _ _ sh got (h.2 sh.available) (ho _)
    refine ⟨.server (.inner t) :: ls, .step (.other _ _ _ (.getAvail _ t _ k (Cfg.lone_at _ _ _ _) rfl) (by simp) (by simp) ?_) ?_, ?_⟩
    · intro t' f k' e hf
      cases e
      rw [Cfg.lone_at] at hf; cases hf; simp
    · rw [Cfg.lone_put]; exact hr
    · exact ⟨by simpa [List.filterMap_cons, tcpEvent, Label.event] using he, by simpa using hns⟩
  | putUsed v k ih =>
    intro held c d sh got h ho
    obtain ⟨ls, hr, he, hns⟩ := ih _ _ _ { sh with used := v } got h.2.2 ho
    refine ⟨.server (.inner t) :: ls, .step (.other _ _ _ (.putUsed _ t _ v k (Cfg.lone_at _ _ _ _) rfl) (by simp) (by simp) ?_) ?_, ?_⟩
    · intro t' f k' e hf
      cases e
      rw [Cfg.lone_at] at hf; cases hf; simp
    · rw [Cfg.lone_put]; exact hr
    · exact ⟨by simpa [List.filterMap_cons, tcpEvent, Label.event] using he, by simpa using hns⟩
  | putAvail v k ih =>
    intro held c d sh got h ho
    obtain ⟨ls, hr, he, hns⟩ := ih _ _ _ { sh with available := v } got h.2.2 ho
    refine ⟨.server (.inner t) :: ls, .step (.other _ _ _ (.putAvail _ t _ v k (Cfg.lone_at _ _ _ _) rfl) (by simp) (by simp) ?_) ?_, ?_⟩
    · intro t' f k' e hf
      cases e
      rw [Cfg.lone_at] at hf; cases hf; simp
    · rw [Cfg.lone_put]; exact hr
    · exact ⟨by simpa [List.filterMap_cons, tcpEvent, Label.event] using he, by simpa using hns⟩
  | commit f k ih =>
    intro held c d sh got h ho
    obtain ⟨rfl, h⟩ := h
    obtain ⟨ls, hr, he, hns⟩ := ih _ _ _ _ { sh with world := f sh.world } got (h sh.world) (ho _)
    refine ⟨.server (.effect t ev) :: ls, .step (.other _ _ _ (.commit _ t _ f k (Cfg.lone_at _ _ _ _) rfl) (by simp) (by simp)
      (by simp)) ?_, ?_⟩
    · rw [Cfg.lone_put]; exact hr
    · exact ⟨by simpa [List.filterMap_cons, tcpEvent, Label.event] using he, by simpa using hns⟩
  | send k ih =>
    intro held c d sh got h ho
    cases owner with
    | none => exact absurd ho id
    | some c' =>
      obtain ⟨y, hy, ⟨bs, hbs⟩, hk⟩ := ho
      obtain ⟨ls, hr, he, hns⟩ := ih _ _ _ sh (upd got c' y.output) h.2 (by simpa [upd_self] using hk)
      refine ⟨.piece c' bs :: .server (.inner t) :: ls,
        .step (.piece _ t c' _ k y bs (Cfg.lone_at _ _ _ _) rfl rfl hy (by rw [hbs]; exact List.prefix_rfl))
        (.step (.sent _ t c' _ k y (Cfg.lone_at _ _ _ _) rfl rfl hy (by simp only [upd_self]; exact hbs)) ?_), ?_⟩
      · rw [Cfg.lone_put]
        have e1 : upd got c' (got c' ++ bs) = upd got c' y.output := by rw [← hbs]
        have e2 : ∀ x, gotAfter (upd got c' y.output) (some c') x = gotAfter got (some c') x := by
          intro x; simp only [gotAfter, upd_upd]
        rw [e2] at hr
        dsimp only
        rw [e1]
        exact hr
      · exact ⟨by simpa [List.filterMap_cons, tcpEvent, Label.event] using he, by simpa using hns⟩

/-- Nothing is in flight and nobody waits for a lock. -/
def AtRest {σ} (s : Cfg σ) : Prop := ∃ sh conns, s = Cfg.quiet sh conns

theorem AtRest.run {σ} {env : Env σ} {p : Profile} {s : Tcp σ} (h : AtRest s.cfg) (ev : Event σ) (owner : Option Nat)
    (code : Task σ) (hwl : code.WL (fun _ => none) false false) (ho : code.Out (owner.map s.got)) :
    ∃ ls s', Tcp.Reach env p { s with cfg := s.cfg.put 0 (some (Flight.start ev owner code)) } ls s' ∧ AtRest s'.cfg ∧
      ls.filterMap tcpEvent = [live ev] ∧ ∀ u ev', TcpLabel.server (.start u ev') ∉ ls := by
  obtain ⟨sh, conns, hq⟩ := h
  obtain ⟨ls, hr, he⟩ := tcp_alone env p 0 conns ev owner s.buf s.ended code _ _ _ sh s.got hwl ho
  rw [hq]
  exact ⟨ls, _, hr, ⟨_, _, rfl⟩, he⟩

/-- The interactive state of a server on which nothing is in progress. -/
def restOf {σ} (s : Tcp σ) : Net σ :=
  { sys := { shared := s.cfg.shared, conns := fun c => (s.cfg.conns c).map (fun x =>
      { x with input := ⟨x.input.bytes ++ s.buf c, (s.ended c).getD .unexpectedEof⟩ }) }
    ended := s.ended }

/-- One event of an interactive history, on sockets. -/
theorem calm_step {σ} (env : Env σ) (p : Profile) (s : Tcp σ) (hq : AtRest s.cfg)
    (hgot : ∀ c, s.got c = outOf (s.cfg.conns c)) (e : NetEvent σ) :
    ∃ ls s', Tcp.Reach env p s ls s' ∧ AtRest s'.cfg ∧
      (ls.filterMap tcpEvent = [e] ∨ (ls = [] ∧ (restOf s).step env p e = restOf s)) ∧
      ∀ u ev', TcpLabel.server (.start u ev') ∈ ls → live ev' = e := by
  have hnone : ∀ t, s.cfg.flights t = none := by
    obtain ⟨sh, conns, h⟩ := hq
    intro t; rw [h]; rfl
  have hidle : ∀ c, s.cfg.idle c := fun c t f hf => by rw [hnone t] at hf; simp at hf
  have stay : (restOf s).step env p e = restOf s → ∃ ls s', Tcp.Reach env p s ls s' ∧ AtRest s'.cfg ∧
      (ls.filterMap tcpEvent = [e] ∨ (ls = [] ∧ (restOf s).step env p e = restOf s)) ∧
      ∀ u ev', TcpLabel.server (.start u ev') ∈ ls → live ev' = e :=
    fun hn => ⟨[], s, .refl, hq, .inr ⟨rfl, hn⟩, by simp⟩
  have setC : ∀ f, AtRest { s.cfg with conns := f } := by
    obtain ⟨sh, conns, h⟩ := hq
    intro f; exact ⟨sh, f, by rw [h]; rfl⟩
  have calmIn : ∀ c, (restOf s).sys.conns c = (s.cfg.conns c).map (fun x =>
      { x with input := ⟨x.input.bytes ++ s.buf c, (s.ended c).getD .unexpectedEof⟩ }) := fun _ => rfl
  cases e with
  | connect c =>
    cases hc : s.cfg.conns c with
    | some x => exact stay (by simp only [Net.step, Sys.step, calmIn, hc, Option.map_some])
    | none => exact ⟨[.server (.outside (.connect c ⟨[], .unexpectedEof⟩))], _, .step (.connect s c hc) .refl, setC _, .inl rfl, by simp⟩
  | arrive c bs =>
    cases hc : s.cfg.conns c with
    | none => exact stay (by simp only [Net.step, calmIn, hc, Option.map_none])
    | some x =>
      cases he : s.ended c with
      | some e => exact stay (by simp only [Net.step, calmIn, hc, Option.map_some]; simp only [restOf, he])
      | none => exact ⟨[.arrive c bs], _, .step (.arrive s c bs (by rw [hc]; simp) he) .refl, hq, .inl rfl, by simp⟩
  | hangup c e' =>
    cases hc : s.cfg.conns c with
    | none => exact stay (by simp only [Net.step, calmIn, hc, Option.map_none])
    | some x =>
      cases he : s.ended c with
      | some e => exact stay (by simp only [Net.step, calmIn, hc, Option.map_some]; simp only [restOf, he])
      | none => exact ⟨[.hangup c e'], _, .step (.hangup s c e' (by rw [hc]; simp) he) .refl, hq, .inl rfl, by simp⟩
  | cancel c =>
    cases hc : s.cfg.conns c with
    | none => exact stay (by simp only [Net.step, Sys.step, calmIn, hc, Option.map_none])
    | some x =>
      by_cases hr : x.status = .running
      · exact ⟨[.server (.outside (.cancel c))], _, .step (.other _ _ _ (.cancel _ c x hc hr (hidle c)) (by simp) (by simp)
          (by simp)) .refl, setC _, .inl rfl, by simp⟩
      · exact stay (by simp only [Net.step, Sys.step, calmIn, hc, Option.map_some, if_neg hr])
  | user f crash =>
    refine ⟨[.server (.outside (.user f crash))], _, .step (.other _ _ _ (.user _ f crash) (by simp) (by simp) (by simp)) .refl, ?_, .inl rfl, by simp⟩
    obtain ⟨sh, conns, h⟩ := hq
    exact ⟨_, conns, by rw [h]; rfl⟩
  | addDevice d =>
    obtain ⟨ls, s', hr, hc, he, hns⟩ := AtRest.run (env := env) (p := p) hq (.addDevice d) none (addTask d) (addTask_WL d) (addTask_Out d)
    exact ⟨_, s', .step (.other _ _ _ (.add _ 0 d (hnone 0)) (by simp) (by simp) (by simp)) hr, hc,
      .inl (by rw [List.filterMap_cons]; exact he), by
        intro u ev' hm
        rcases List.mem_cons.1 hm with h | h
        · cases h; rfl
        · exact absurd h (hns u ev')⟩
  | removeDevice i =>
    obtain ⟨ls, s', hr, hc, he, hns⟩ := AtRest.run (env := env) (p := p) hq (.removeDevice i) none (removeTask i) (removeTask_WL i) (removeTask_Out i)
    exact ⟨_, s', .step (.other _ _ _ (.remove _ 0 i (hnone 0)) (by simp) (by simp) (by simp)) hr, hc,
      .inl (by rw [List.filterMap_cons]; exact he), by
        intro u ev' hm
        rcases List.mem_cons.1 hm with h | h
        · cases h; rfl
        · exact absurd h (hns u ev')⟩
  | iterate c w =>
    cases hc : s.cfg.conns c with
    | none => exact stay (by simp only [Net.step, Sys.step, calmIn, hc, Option.map_none]; split <;> rfl)
    | some x =>
      by_cases hr : x.status = .running
      · have hrdy : (restOf s).ready p c = match s.ended c with
            | some _ => true
            | none => match (readCommand p : Rd Arrived Cmd) ⟨x.input.bytes ++ s.buf c⟩ with
              | .diverge => false
              | _ => true := by
          simp only [Net.ready, calmIn, hc, Option.map_some]
          rfl
        have takeAll := Tcp.Step.take (env := env) (p := p) s c x (s.buf c) [] hc (hidle c) (by rw [List.append_nil])
        generalize hs1 : ({ s with
          cfg := { s.cfg with conns := setConn s.cfg.conns c { x with input := ⟨x.input.bytes ++ s.buf c, x.input.fin⟩ } }
          buf := upd s.buf c [] } : Tcp σ) = s1 at takeAll
        have q1 : AtRest s1.cfg := by rw [← hs1]; exact setC _
        have n1 : ∀ t, s1.cfg.flights t = none := by rw [← hs1]; exact hnone
        have i1 : s1.cfg.idle c := by rw [← hs1]; exact hidle c
        have c1 : s1.cfg.conns c = some { x with input := ⟨x.input.bytes ++ s.buf c, x.input.fin⟩ } := by
          rw [← hs1]; simp [setConn]
        have b1 : s1.buf c = [] := by rw [← hs1]; exact upd_self _ _ _
        have e1 : s1.ended c = s.ended c := by rw [← hs1]
        have g1 : s1.got c = x.output := by
          rw [← hs1]; show s.got c = _; rw [hgot c, hc]; rfl
        have go : ∀ y : Conn, y.output = x.output →
            Tcp.Step env p s1 (.server (.start 0 (.iterate c w))) { s1 with
              cfg := s1.cfg.put 0 (some (Flight.start (.iterate c w) (some c) (iterTask env p y w))) } →
            ∃ ls s', Tcp.Reach env p s ls s' ∧ AtRest s'.cfg ∧
              (ls.filterMap tcpEvent = [.iterate c w] ∨ (ls = [] ∧ (restOf s).step env p (.iterate c w) = restOf s)) ∧
              ∀ u ev', TcpLabel.server (.start u ev') ∈ ls → live ev' = .iterate c w := by
          intro y hy st
          obtain ⟨ls, s', hr, hc, he, hns⟩ := AtRest.run (env := env) (p := p) q1 (.iterate c w) (some c) (iterTask env p y w)
            (iterTask_WL env p y w) (by
              show (iterTask env p y w).Out (some (s1.got c))
              rw [g1, ← hy]; exact iterTask_Out env p y w)
          exact ⟨_, s', .step takeAll (.step st hr), hc, .inl (by
            rw [List.filterMap_cons, List.filterMap_cons]; exact he), by
              intro u ev' hm
              rcases List.mem_cons.1 hm with h | h
              · cases h
              rcases List.mem_cons.1 h with h | h
              · cases h; rfl
              · exact absurd h (hns u ev')⟩
        cases he : s.ended c with
        | some e =>
          exact go { x with input := ⟨x.input.bytes ++ s.buf c, e⟩ } rfl (.iterateEnd s1 0 c w _ e (n1 0) c1 hr i1 (by rw [e1]; exact he) b1)
        | none =>
          by_cases hd : (readCommand p : Rd Arrived Cmd) ⟨x.input.bytes ++ s.buf c⟩ = .diverge
          · refine stay ?_
            rw [he, hd] at hrdy
            simp only [Net.step, hrdy]
            rfl
          · exact go { x with input := ⟨x.input.bytes ++ s.buf c, x.input.fin⟩ } rfl (.iterate s1 0 c w _ (n1 0) c1 hr i1 hd)
      · exact stay (by
          simp only [Net.step, Sys.step, calmIn, hc, Option.map_some, if_neg hr]
          split <;> rfl)

/-- Every interactive history, on sockets. -/
theorem calm_run {σ} (env : Env σ) (p : Profile) (devices : List Device) (w : World σ)
    (hrest : ∀ ls s, Tcp.Reach env p (Tcp.init devices w) ls s → AtRest s.cfg →
      (Net.init devices w).run env p (ls.filterMap tcpEvent) = restOf s) (es : List (NetEvent σ)) :
    ∃ ls s, Tcp.Reach env p (Tcp.init devices w) ls s ∧ AtRest s.cfg ∧
      (Net.init devices w).run env p (ls.filterMap tcpEvent) = (Net.init devices w).run env p es ∧
      (ls.filterMap tcpEvent).Sublist es := by
  rw [← List.reverse_reverse es]
  generalize es.reverse = rs
  induction rs with
  | nil => exact ⟨[], _, .refl, ⟨_, _, rfl⟩, rfl, .slnil⟩
  | cons e rs ih =>
    rw [List.reverse_cons]
    generalize rs.reverse = es at ih ⊢
    obtain ⟨ls, s, hr, hc, heq, hsub⟩ := ih
    have hT := TInv.reach hr
    have hidle : ∀ c, s.cfg.idle c := by
      obtain ⟨sh, conns, h⟩ := hc
      intro c t f hf; rw [h] at hf; simp [Cfg.quiet] at hf
    obtain ⟨ls', s', hr', hc', h, _⟩ := calm_step env p s hc (fun c => hT.idle c (hidle c)) e
    refine ⟨ls ++ ls', s', hr.trans hr', hc', ?_, ?_⟩
    · rw [List.filterMap_append]
      simp only [Net.run, List.foldl_append] at heq ⊢
      rw [heq]
      rcases h with h | ⟨rfl, h⟩
      · rw [h]
      · have hre := hrest ls s hr hc
        simp only [Net.run] at hre
        rw [heq] at hre
        simp only [List.filterMap_nil, List.foldl_nil, List.foldl_cons]
        rw [hre, h]
    · rw [List.filterMap_append]
      refine hsub.append ?_
      rcases h with h | ⟨rfl, _⟩
      · rw [h]; exact .refl _
      · exact List.nil_sublist _

/-- The program that gets further, and why it may have the lock it waits for. -/
theorem advancing {σ} {env : Env σ} {p : Profile} {s s' : Cfg σ} {lb : Label σ} (st : Cfg.Step env p s lb s')
    (ha : Advances lb) : ∃ t f, s.flights t = some f ∧ ∀ l m k, f.code = .lock l m k → f.waiting = true →
      ∃ q, s.queue l = t :: q ∧ ∀ u g h, s.flights u = some g → g.held l = some h → compatible m h = true := by
  cases st with
  | connect c input hc => exact absurd ha id
  | user f => exact absurd ha id
  | iterate t c w x ht hc hr hi => exact absurd ha id
  | add t d ht => exact absurd ha id
  | remove t i ht => exact absurd ha id
  | abandon t f ht hc => exact absurd ha id
  | cancel c x hc hr hi => exact absurd ha id
  | request t f l m k ht hk hw => exact ⟨t, f, ht, fun _ _ _ _ h => by rw [hw] at h; simp at h⟩
  | grant t f l m k q ht hk hw hq hc =>
    refine ⟨t, f, ht, fun l' m' k' h _ => ?_⟩
    rw [hk] at h; cases h
    exact ⟨q, hq, hc⟩
  | unlock t f l k ht hk => exact ⟨t, f, ht, fun _ _ _ h => by rw [hk] at h; simp at h⟩
  | getUsed t f k ht hk => exact ⟨t, f, ht, fun _ _ _ h => by rw [hk] at h; simp at h⟩
  | getAvail t f k ht hk => exact ⟨t, f, ht, fun _ _ _ h => by rw [hk] at h; simp at h⟩
  | putUsed t f v k ht hk => exact ⟨t, f, ht, fun _ _ _ h => by rw [hk] at h; simp at h⟩
  | putAvail t f v k ht hk => exact ⟨t, f, ht, fun _ _ _ h => by rw [hk] at h; simp at h⟩
  | commit t f g k ht hk => exact ⟨t, f, ht, fun _ _ _ h => by rw [hk] at h; simp at h⟩
  | send t f k ht hk => exact ⟨t, f, ht, fun _ _ _ h => by rw [hk] at h; simp at h⟩
  | finish t f x ht hk => exact ⟨t, f, ht, fun _ _ _ h => by rw [hk] at h; simp at h⟩

/-- Steps of a program that is not sending are the same on sockets. -/
theorem tcp_further {σ} {env : Env σ} {p : Profile} (s : Tcp σ) {t : Nat} {f : Flight σ}
    (ht : s.cfg.flights t = some f) (hs : ∀ k, f.code ≠ .send k)
    (hl : ∀ l m k, f.code = .lock l m k → f.waiting = true →
      ∃ q, s.cfg.queue l = t :: q ∧ ∀ u g h, s.cfg.flights u = some g → g.held l = some h → compatible m h = true) :
    ∃ lb s', Tcp.Step env p s (.server lb) s' ∧ Advances lb := by
  have go : ∀ lb s', Cfg.Step env p s.cfg lb s' → (lb = .inner t ∨ lb = .ended t ∨ ∃ ev, lb = .effect t ev) →
      ∃ lb s', Tcp.Step env p s (.server lb) s' ∧ Advances lb := by
    rintro lb s' st (rfl | rfl | ⟨ev, rfl⟩)
    · refine ⟨_, _, .other _ _ _ st (by simp) (by simp) ?_, trivial⟩
      intro t' g k e hg
      cases e
      rw [ht] at hg; cases hg
      exact hs k
    · exact ⟨_, _, .other _ _ _ st (by simp) (by simp) (by simp), trivial⟩
    · exact ⟨_, _, .other _ _ _ st (by simp) (by simp) (by simp), trivial⟩
  cases hk : f.code with
  | done x => exact go _ _ (.finish _ t f x ht hk) (.inr (.inl rfl))
  | lock l m k =>
    cases hw : f.waiting with
    | false => exact go _ _ (.request _ t f l m k ht hk hw) (.inl rfl)
    | true =>
      obtain ⟨q, hq, hc⟩ := hl l m k hk hw
      exact go _ _ (.grant _ t f l m k q ht hk hw hq hc) (.inl rfl)
  | unlock l k => exact go _ _ (.unlock _ t f l k ht hk) (.inl rfl)
  | getUsed k => exact go _ _ (.getUsed _ t f k ht hk) (.inl rfl)
  | getAvail k => exact go _ _ (.getAvail _ t f k ht hk) (.inl rfl)
  | putUsed v k => exact go _ _ (.putUsed _ t f v k ht hk) (.inl rfl)
  | putAvail v k => exact go _ _ (.putAvail _ t f v k ht hk) (.inl rfl)
  | commit g k => exact go _ _ (.commit _ t f g k ht hk) (.inr (.inr ⟨_, rfl⟩))
  | send k => exact absurd hk (hs k)

theorem hearCode_lock {σ} {m : Nat → Stream} {o : Option Nat} {code : Task σ} {l : Lk} {md : Mode} {k : Task σ}
    (h : hearCode m o code = .lock l md k) : ∃ k', code = .lock l md k' := by
  cases o with
  | none => exact ⟨k, h⟩
  | some c => cases code <;> simp [hearCode, hear] at h; exact ⟨_, by rw [h.1, h.2.1]⟩

end Usbip
