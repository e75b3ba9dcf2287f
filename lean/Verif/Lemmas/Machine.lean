import Verif.Spec.Machine
import Verif.Lemmas.Whole
import Verif.Lemmas.WholeLive
import Verif.Lemmas.Listen
/-! Helper lemmas: a process with calls of `server`. -/

namespace Usbip
open Spec

/-- Only `connect` makes a connection. -/
theorem cfg_none {σ} {env : Env σ} {p : Profile} {s s' : Cfg σ} {lb : Label σ} (hI : Tame s) (st : Cfg.Step env p s lb s')
    (hl : ∀ c i, lb ≠ .outside (.connect c i)) {c : Nat} (hc : s.conns c = none) : s'.conns c = none := by
  cases st with
  | connect c' i h => exact absurd rfl (hl c' i)
  | finish t f x ht hk =>
    show finished s.conns f.owner x c = none
    cases ho : f.owner with
    | none => exact hc
    | some d =>
      cases x with
      | call r => exact hc
      | conn y =>
        obtain ⟨z, hz⟩ := hI.owner t f d ht ho
        have : c ≠ d := by rintro rfl; rw [hc] at hz; cases hz
        exact (setConn_ne this).trans hc
  | abandon t f ht hcm =>
    show dropped s.conns f.owner c = none
    cases ho : f.owner with
    | none => exact hc
    | some d =>
      obtain ⟨z, hz⟩ := hI.owner t f d ht ho
      have : c ≠ d := by rintro rfl; rw [hc] at hz; cases hz
      simp only [dropped, hz]
      exact (setConn_ne this).trans hc
  | cancel d x hx hr hi =>
    have : c ≠ d := by rintro rfl; rw [hc] at hx; cases hx
    exact (setConn_ne this).trans hc
  | _ => exact hc

theorem tcp_none {σ} {env : Env σ} {p : Profile} {s s' : Tcp σ} {lb : TcpLabel σ} (hI : Tame s.cfg)
    (st : Tcp.Step env p s lb s') (hl : ∀ c i, lb ≠ .server (.outside (.connect c i))) {c : Nat}
    (hc : s.cfg.conns c = none) : s'.cfg.conns c = none := by
  cases st with
  | connect c' h => exact absurd rfl (hl c' _)
  | take d x bs rest hx hi hb =>
    have : c ≠ d := by rintro rfl; rw [hc] at hx; cases hx
    exact (setConn_ne this).trans hc
  | other lb cfg' st h1 h2 h3 => exact cfg_none hI st h1 hc
  | _ => exact hc

/-- What a step does, seen from outside: nothing, or something for which the server's connection is there. -/
theorem tcp_inner_event {σ} {env : Env σ} {p : Profile} {devices : List Device} {w : World σ} {ls : List (TcpLabel σ)}
    {s s' : Tcp σ} {lb : TcpLabel σ} (hr : Tcp.Reach env p (Tcp.init devices w) ls s)
    (st : Tcp.Step env p s lb s') (hl : ∀ c i, lb ≠ .server (.outside (.connect c i))) (ne : NetEvent σ)
    (he : tcpEvent lb = some ne) :
    (∀ c, ne ≠ .connect c) ∧ (∀ c bs, ne = .arrive c bs → s.cfg.conns c ≠ none) ∧
      ∀ c e, ne = .hangup c e → s.cfg.conns c ≠ none := by
  have server : ∀ l : Label σ, tcpEvent (.server l) = some ne → (∀ c bs, ne ≠ .arrive c bs) ∧ ∀ c e, ne ≠ .hangup c e := by
    intro l h
    simp only [tcpEvent, Option.map_eq_some_iff] at h
    obtain ⟨ev, _, rfl⟩ := h
    exact ⟨fun c bs => by cases ev <;> simp [live], fun c e => by cases ev <;> simp [live]⟩
  have cfg : ∀ (l : Label σ) cfg', Cfg.Step env p s.cfg l cfg' → tcpEvent (.server l) = some ne →
      (∀ c i, l ≠ .outside (.connect c i)) → ∀ c, ne ≠ .connect c := by
    intro l cfg' st h hl c
    cases st with
    | connect c' i => exact absurd rfl (hl c' i)
    | commit t f g k ht hk =>
      simp only [tcpEvent, Label.event, Option.map_some, Option.some.injEq] at h
      subst h
      rcases (TInv.reach hr).kind ht with ⟨_, _, h, _⟩ | ⟨⟨_, h⟩ | ⟨_, h⟩, _⟩ <;> rw [h] <;> simp [live]
    | abandon t f ht hk =>
      cases ho : f.owner with
      | none => rw [ho] at h; simp [tcpEvent, Label.event] at h
      | some d =>
        rw [ho] at h
        simp only [tcpEvent, Label.event, Option.map_some, Option.some.injEq] at h
        subst h; simp [live]
    | user f cr =>
      simp only [tcpEvent, Label.event, Option.map_some, Option.some.injEq] at h
      subst h; simp [live]
    | cancel d x hx hr hi =>
      simp only [tcpEvent, Label.event, Option.map_some, Option.some.injEq] at h
      subst h; simp [live]
    | _ => simp [tcpEvent, Label.event] at h
  cases st with
  | connect c' h => exact absurd rfl (hl c' _)
  | arrive c bs h hen =>
    simp only [tcpEvent, Option.some.injEq] at he
    subst he
    exact ⟨by simp, fun c' bs' e => by cases e; exact h, by simp⟩
  | hangup c er h hen =>
    simp only [tcpEvent, Option.some.injEq] at he
    subst he
    exact ⟨by simp, by simp, fun c' bs' e => by cases e; exact h⟩
  | take => cases he
  | piece => cases he
  | iterate => simp [tcpEvent, Label.event] at he
  | iterateEnd => simp [tcpEvent, Label.event] at he
  | sent => simp [tcpEvent, Label.event] at he
  | other l cfg' st h1 h2 h3 =>
    exact ⟨cfg l cfg' st he h1, fun c bs e => absurd e ((server l he).1 c bs), fun c e' e => absurd e ((server l he).2 c e')⟩

/-- A step of the server, seen from a process. -/
theorem proc_inner {σ} (env : Env σ) (p : Profile) (P : Proc σ) (ne : NetEvent σ) (h1 : ∀ c, ne ≠ .connect c)
    (h2 : ∀ c bs, ne = .arrive c bs → P.front c = .accepted) (h3 : ∀ c e, ne = .hangup c e → P.front c = .accepted) :
    ∃ pe, fromNet ne = some pe ∧ P.step env p pe = { P with net := P.net.step env p ne } := by
  cases ne with
  | connect c => exact absurd rfl (h1 c)
  | arrive c bs => exact ⟨_, rfl, by simp only [Proc.step, h2 c bs rfl]⟩
  | hangup c e => exact ⟨_, rfl, by simp only [Proc.step, h3 c e rfl]⟩
  | _ => exact ⟨_, rfl, rfl⟩

section
variable {τ : Type} {code : Code τ} {env : Env (HandlerId → τ)} {p : Profile} {devices : List Device}
  {w : World (HandlerId → τ)}

/-- The intermediate states of `accept`: the connection is there. -/
def opened (s : Whole code) (c : Nat) : Whole code :=
  { s with fine := { s.fine with cfg := { s.fine.cfg with conns := setConn s.fine.cfg.conns c (Conn.new ⟨[], .unexpectedEof⟩) } } }

/-- What the client has said is there, too. -/
def spoken (s : Whole code) (c : Nat) (bs : Bytes) : Whole code :=
  { opened s c with buf := upd s.buf c bs }

/-- What the end of its side makes of it is there, too. -/
def admitted (s : Whole code) (c : Nat) (bs : Bytes) (fin : Option ErrKind) : Whole code :=
  { spoken s c bs with ended := upd s.ended c fin }

theorem open_step {s : Whole code} {c : Nat} (hc : s.fine.cfg.conns c = none) :
    Whole.Step code env p s (some (.server (.outside (.connect c ⟨[], .unexpectedEof⟩)))) (opened s c) :=
  .socket s _ _ (.connect s.tcp c hc) (fun l e ho => by cases e; exact ho) (fun l t e hp => by cases e; cases hp)

theorem opened_conns (s : Whole code) (c : Nat) : (opened s c).fine.cfg.conns c = some (Conn.new ⟨[], .unexpectedEof⟩) := by
  simp [opened, setConn]

theorem speak_step {s : Whole code} {c : Nat} (bs : Bytes) (hb : s.buf c = []) (he : s.ended c = none) :
    Whole.Step code env p (opened s c) (some (.arrive c bs)) (spoken s c bs) := by
  have := Whole.Step.socket (code := code) (env := env) (p := p) (opened s c) _ _
    (.arrive (opened s c).tcp c bs (by show (opened s c).fine.cfg.conns c ≠ none; rw [opened_conns]; simp) he)
    (fun l e => by cases e) (fun l t e => by cases e)
  have hb' : (opened s c).buf c = [] := hb
  dsimp only [Whole.tcp] at this
  rw [hb', List.nil_append] at this
  exact this

theorem end_step {s : Whole code} {c : Nat} (bs : Bytes) (er : ErrKind) (he : s.ended c = none) :
    Whole.Step code env p (spoken s c bs) (some (.hangup c er)) (admitted s c bs (some er)) :=
  Whole.Step.socket (code := code) (env := env) (p := p) (spoken s c bs) _ _
    (.hangup (spoken s c bs).tcp c er (by show (opened s c).fine.cfg.conns c ≠ none; rw [opened_conns]; simp) he)
    (fun l e => by cases e) (fun l t e => by cases e)

theorem taken_none {s : Whole code} {c : Nat} (bs : Bytes) (he : s.ended c = none) : admitted s c bs none = spoken s c bs := by
  have : upd s.ended c none = s.ended := by
    funext d
    by_cases e : d = c
    · subst e; rw [upd_self, he]
    · exact upd_ne _ _ e
  simp only [admitted, this]
  rfl

theorem take_reach {s : Whole code} {k c : Nat} (bs : Bytes) (fin : Option ErrKind) (hc : s.fine.cfg.conns c = none)
    (hb : s.buf c = []) (he : s.ended c = none) :
    Whole.Reach code env p s (toServer (.accept k c bs fin)) (admitted s c bs fin) := by
  have h : Whole.Reach code env p s _ _ := ((Whole.Reach.refl).tail (open_step hc)).tail (speak_step bs hb he)
  cases fin with
  | none => rw [taken_none bs he]; exact h
  | some er => exact h.tail (end_step bs er he)

/-- What is true of all states of a process. -/
structure KInv (code : Code τ) (env : Env (HandlerId → τ)) (p : Profile) (devices : List Device)
    (w : World (HandlerId → τ)) (ls : List (MachineLabel (HandlerId → τ))) (s : Machine code) : Prop where
  whole : Whole.Reach code env p (Whole.init code devices w) (ls.flatMap toServer) s.whole
  conn : ∀ c, s.front c ≠ .accepted → s.whole.fine.cfg.conns c = none
  net : ((Proc.init devices w).run env p (ls.filterMap machineEvent)).net =
    (Net.init devices w).run env p ((ls.flatMap toServer).filterMap tcpEvent)
  calls : ((Proc.init devices w).run env p (ls.filterMap machineEvent)).calls = s.calls
  front : ((Proc.init devices w).run env p (ls.filterMap machineEvent)).front = s.front

theorem KInv.fresh (hb : Behaves code env) {ls : List (MachineLabel (HandlerId → τ))} {s : Machine code}
    (h : KInv code env p devices w ls s) {c : Nat} (hc : s.front c ≠ .accepted) :
    s.whole.buf c = [] ∧ s.whole.ended c = none ∧ s.whole.got c = [] := by
  obtain ⟨_, w', _, hr⟩ := whole_reach hb h.whole
  exact (TInv.reach hr).fresh c (h.conn c hc)

theorem KInv.step (hb : Behaves code env) {ls : List (MachineLabel (HandlerId → τ))} {s s' : Machine code}
    {lb : Option (MachineLabel (HandlerId → τ))} (h : KInv code env p devices w ls s)
    (st : Machine.Step code env p s lb s') : KInv code env p devices w (ls ++ lb.toList) s' := by
  have run1 : ∀ e : ProcEvent (HandlerId → τ), (Proc.init devices w).run env p (ls.filterMap machineEvent ++ [e]) =
      ((Proc.init devices w).run env p (ls.filterMap machineEvent)).step env p e := by
    intro e; rw [proc_append]; rfl
  have hPI : PInv ((Proc.init devices w).run env p (ls.filterMap machineEvent)) := (PInv.init devices w).run _
  have H := h
  obtain ⟨h1, h2, h3, h4, h5⟩ := h
  cases st with
  | serve k b hk =>
    rw [← h4] at hk
    refine ⟨by simpa [toServer] using h1, h2, ?_, ?_, ?_⟩ <;>
      simp only [Option.toList_some, List.filterMap_append, List.filterMap_cons, machineEvent, List.filterMap_nil, run1,
        List.flatMap_append, List.flatMap_cons, toServer, List.flatMap_nil, List.append_nil, Proc.step, hk]
    · exact h3
    · rw [h4]
    · exact h5
  | dial k c q hk hf =>
    have hk' := hk
    have hf' := hf
    rw [← h4] at hk; rw [← h5] at hf
    refine ⟨by simpa [toServer] using h1, fun d hd => ?_, ?_, ?_, ?_⟩
    rotate_left
    all_goals try
      simp only [Option.toList_some, List.filterMap_append, List.filterMap_cons, machineEvent, List.filterMap_nil, run1,
        List.flatMap_append, List.flatMap_cons, toServer, List.flatMap_nil, List.append_nil, Proc.step, hk, hf]
    · exact h3
    · rw [h4]
    · rw [h5]
    · by_cases e : d = c
      · subst e; exact h2 d (by rw [hf']; simp)
      · exact h2 d (by dsimp only at hd; rwa [upd_ne _ _ e] at hd)
  | refuse k c hk hf =>
    have hf' := hf
    rw [← h4] at hk; rw [← h5] at hf
    have hs : ((Proc.init devices w).run env p (ls.filterMap machineEvent)).step env p (.dial k c) =
        { (Proc.init devices w).run env p (ls.filterMap machineEvent) with
          front := upd ((Proc.init devices w).run env p (ls.filterMap machineEvent)).front c .refused } := by
      simp only [Proc.step, hf]
    refine ⟨by simpa [toServer] using h1, fun d hd => ?_, ?_, ?_, ?_⟩
    rotate_left
    all_goals try
      simp only [Option.toList_some, List.filterMap_append, List.filterMap_cons, machineEvent, List.filterMap_nil, run1,
        List.flatMap_append, List.flatMap_cons, toServer, List.flatMap_nil, List.append_nil, hs]
    · exact h3
    · exact h4
    · rw [h5]
    · by_cases e : d = c
      · subst e; exact h2 d (by rw [hf']; simp)
      · exact h2 d (by dsimp only at hd; rwa [upd_ne _ _ e] at hd)
  | accept k c q bs fin hk hf =>
    have hne : s.front c ≠ .accepted := by rw [hf]; simp
    have hc := h2 c hne
    obtain ⟨f1, f2, _⟩ := H.fresh hb hne
    have hk' := hk
    have hf' := hf
    rw [← h4] at hk; rw [← h5] at hf
    have hn : ((Proc.init devices w).run env p (ls.filterMap machineEvent)).net.sys.conns c = none :=
      Classical.byContradiction fun hn => by rw [(hPI.conn c).mp hn] at hf; simp at hf
    refine ⟨?_, fun d hd => ?_, ?_, ?_, ?_⟩
    · simp only [Option.toList_some, List.flatMap_append, List.flatMap_cons, List.flatMap_nil, List.append_nil]
      exact h1.trans (take_reach (k := k) bs fin hc f1 f2)
    · have e : d ≠ c := by rintro rfl; dsimp only at hd; rw [upd_self] at hd; exact hd rfl
      have hd' : s.front d ≠ .accepted := by dsimp only at hd; rwa [upd_ne _ _ e] at hd
      exact (setConn_ne e).trans (h2 d hd')
    · simp only [Option.toList_some, List.filterMap_append, List.filterMap_cons, machineEvent, List.filterMap_nil, run1,
        List.flatMap_append, List.flatMap_cons, List.flatMap_nil, List.append_nil, Proc.step, hk, hf]
      rw [← run_accept env p _ c bs fin hn (hPI.fresh c hn), h3]
      unfold Net.run
      rw [List.foldl_append]
      congr 1
      cases fin <;> rfl
    · simp only [Option.toList_some, List.filterMap_append, List.filterMap_cons, machineEvent, List.filterMap_nil, run1,
        Proc.step, hk, hf]
      rw [h4]
    · simp only [Option.toList_some, List.filterMap_append, List.filterMap_cons, machineEvent, List.filterMap_nil, run1,
        Proc.step, hk, hf]
      rw [h5]
  | acceptErr k q hk =>
    refine ⟨by simpa [toServer] using h1, h2, ?_, ?_, ?_⟩ <;>
      simp only [Option.toList_some, List.filterMap_append, List.filterMap_cons, machineEvent, List.filterMap_nil, run1,
        List.flatMap_append, List.flatMap_cons, toServer, List.flatMap_nil, List.append_nil, Proc.step]
    · exact h3
    · exact h4
    · exact h5
  | dropServe k q hk =>
    have hk' := hk
    rw [← h4] at hk
    have hq := hPI.queued k q hk
    rw [h5] at hq
    refine ⟨by simpa [toServer] using h1, fun d hd => ?_, ?_, ?_, ?_⟩
    rotate_left
    all_goals try
      simp only [Option.toList_some, List.filterMap_append, List.filterMap_cons, machineEvent, List.filterMap_nil, run1,
        List.flatMap_append, List.flatMap_cons, toServer, List.flatMap_nil, List.append_nil, Proc.step, hk]
    · exact h3
    · rw [h4]
    · rw [h5]
    · by_cases e : d ∈ q
      · obtain ⟨b, e', hw⟩ := hq d e
        exact h2 d (by rw [hw]; simp)
      · exact h2 d (by dsimp only at hd; rwa [if_neg e] at hd)
  | early c b bs hf =>
    have hf' := hf
    rw [← h5] at hf
    refine ⟨by simpa [toServer] using h1, fun d hd => ?_, ?_, ?_, ?_⟩
    rotate_left
    all_goals try
      simp only [Option.toList_some, List.filterMap_append, List.filterMap_cons, machineEvent, List.filterMap_nil, run1,
        List.flatMap_append, List.flatMap_cons, toServer, List.flatMap_nil, List.append_nil, Proc.step, hf]
    · exact h3
    · exact h4
    · rw [h5]
    · by_cases e : d = c
      · subst e; exact h2 d (by rw [hf']; simp)
      · exact h2 d (by dsimp only at hd; rwa [upd_ne _ _ e] at hd)
  | earlyEnd c b er hf =>
    have hf' := hf
    rw [← h5] at hf
    refine ⟨by simpa [toServer] using h1, fun d hd => ?_, ?_, ?_, ?_⟩
    rotate_left
    all_goals try
      simp only [Option.toList_some, List.filterMap_append, List.filterMap_cons, machineEvent, List.filterMap_nil, run1,
        List.flatMap_append, List.flatMap_cons, toServer, List.flatMap_nil, List.append_nil, Proc.step, hf]
    · exact h3
    · exact h4
    · rw [h5]
    · by_cases e : d = c
      · subst e; exact h2 d (by rw [hf']; simp)
      · exact h2 d (by dsimp only at hd; rwa [upd_ne _ _ e] at hd)
  | inner lb w' st hl =>
    obtain ⟨hI, w1, hA, hr⟩ := whole_reach hb h1
    have hC : Covered env p s.whole.fine.cfg := fun t f g k ht hk => tcp_covered hr t f g k ht hk
    obtain ⟨hI2, w2, hA2, hst⟩ := whole_step hb hC hI st hA
    cases lb with
    | none =>
      dsimp only at hst
      have hcc : w'.fine.cfg.conns = s.whole.fine.cfg.conns := congrArg (fun a : Tcp _ => a.cfg.conns) hst
      refine ⟨?_, fun d hd => ?_, ?_, ?_, ?_⟩
      · have := h1.tail st
        simpa using this
      · dsimp only; rw [hcc]; exact h2 d hd
      · simpa using h3
      · simpa using h4
      · simpa using h5
    | some lb =>
      dsimp only at hst
      have hl' : ∀ c i, lb ≠ .server (.outside (.connect c i)) := fun c i e => hl c i (congrArg some e)
      suffices h345 : ((Proc.init devices w).run env p ((ls ++ ((some lb).map MachineLabel.inner).toList).filterMap machineEvent)).net =
            (Net.init devices w).run env p (((ls ++ ((some lb).map MachineLabel.inner).toList).flatMap toServer).filterMap tcpEvent) ∧
          ((Proc.init devices w).run env p ((ls ++ ((some lb).map MachineLabel.inner).toList).filterMap machineEvent)).calls = s.calls ∧
          ((Proc.init devices w).run env p ((ls ++ ((some lb).map MachineLabel.inner).toList).filterMap machineEvent)).front = s.front by
        refine ⟨?_, fun d hd => ?_, h345.1, h345.2.1, h345.2.2⟩
        · have := h1.tail st
          simpa [toServer] using this
        · exact tcp_none (tcp_tame hr) hst hl' (h2 d hd)
      · have hacc : ∀ c, s.whole.fine.cfg.conns c ≠ none → s.front c = .accepted := fun c hc =>
          Classical.byContradiction fun hn => hc (h2 c hn)
        cases hne : tcpEvent lb with
        | none =>
          simp only [Option.map_some, Option.toList_some, List.filterMap_append, List.filterMap_cons, machineEvent, hne, Option.bind_none,
            List.filterMap_nil, List.flatMap_append, List.flatMap_cons, toServer, List.flatMap_nil, List.append_nil]
          exact ⟨h3, h4, h5⟩
        | some ne =>
          obtain ⟨g1, g2, g3⟩ := tcp_inner_event hr hst hl' ne hne
          obtain ⟨pe, hpe, hstep⟩ := proc_inner env p ((Proc.init devices w).run env p (ls.filterMap machineEvent)) ne g1
            (fun c bs e => by rw [h5]; exact hacc c (g2 c bs e)) (fun c e' e => by rw [h5]; exact hacc c (g3 c e' e))
          simp only [Option.map_some, Option.toList_some, List.filterMap_append, List.filterMap_cons, machineEvent, hne, Option.bind_some, hpe,
            List.filterMap_nil, List.flatMap_append, List.flatMap_cons, toServer, List.flatMap_nil, List.append_nil, run1, hstep]
          refine ⟨?_, h4, h5⟩
          rw [h3]
          unfold Net.run
          rw [List.foldl_append]; rfl

theorem KInv.init (code : Code τ) (env : Env (HandlerId → τ)) (p : Profile) (devices : List Device)
    (w : World (HandlerId → τ)) : KInv code env p devices w [] (Machine.init code devices w) :=
  ⟨.refl, fun _ _ => rfl, rfl, rfl, rfl⟩

theorem KInv.reach (hb : Behaves code env) {ls : List (MachineLabel (HandlerId → τ))} {s : Machine code}
    (h : Machine.Reach code env p (Machine.init code devices w) ls s) : KInv code env p devices w ls s := by
  induction h with
  | refl => exact .init code env p devices w
  | tail _ st ih => exact ih.step hb st

theorem Machine.Reach.one' {s0 s s' : Machine code} {ls : List (MachineLabel (HandlerId → τ))} {lb : MachineLabel (HandlerId → τ)}
    (h : Machine.Reach code env p s0 ls s) (st : Machine.Step code env p s (some lb) s') :
    Machine.Reach code env p s0 (ls ++ [lb]) s' := h.tail st

/-- A step of the server in which a connection appears. -/
theorem connect_inv {s s' : Whole code} {c : Nat} {i : Stream} {l : Option (TcpLabel (HandlerId → τ))}
    (st : Whole.Step code env p s l s') (hl : l = some (.server (.outside (.connect c i)))) :
    i = ⟨[], .unexpectedEof⟩ ∧ s.fine.cfg.conns c = none ∧ s' = opened s c := by
  cases st with
  | socket lb a st h1 h2 =>
    cases hl
    cases st with
    | connect _ hc => exact ⟨rfl, hc, rfl⟩
    | other _ cfg' st h1 => exact absurd rfl (h1 c i)
  | handler lb f st h =>
    cases lb with
    | none => cases hl
    | some lb => cases hl; exact absurd h id

/-- Every execution of the server is one of a process with a single call of `server`. -/
theorem machine_realised (hb : Behaves code env) {ls : List (TcpLabel (HandlerId → τ))} {s : Whole code}
    (h : Whole.Reach code env p (Whole.init code devices w) ls s) :
    ∃ ls' m, Machine.Reach code env p (Machine.init code devices w) ls' m ∧ m.whole = s ∧ ls'.filterMap asServer = ls ∧
      m.calls 0 = some (.listening []) ∧ ∀ c, m.front c = if s.fine.cfg.conns c = none then .unknown else .accepted := by
  induction h with
  | refl => exact ⟨_, _, Machine.Reach.refl.one' (.serve _ 0 true rfl), rfl, rfl, rfl, fun c => rfl⟩
  | @tail ls s lb s' h st ih =>
    obtain ⟨ls', m, hr, rfl, hls, hk, hf⟩ := ih
    obtain ⟨hI, w1, hA, htr⟩ := whole_reach hb h
    by_cases hc : ∃ c i, lb = some (.server (.outside (.connect c i)))
    · obtain ⟨c, i, rfl⟩ := hc
      obtain ⟨rfl, hcn, rfl⟩ := connect_inv st rfl
      have hfc : m.front c = .unknown := by rw [hf, if_pos hcn]
      obtain ⟨hbuf, hend, _⟩ : m.whole.buf c = [] ∧ m.whole.ended c = none ∧ m.whole.got c = [] := (TInv.reach htr).fresh c hcn
      have r1 := hr.one' (.dial m 0 c [] hk hfc)
      have r2 := r1.one' (.accept _ 0 c [] [] none (by simp [upd]) (by simp [upd]))
      refine ⟨_, _, r2, ?_, ?_, by simp [upd], fun d => ?_⟩
      · have hb' : upd m.whole.buf c [] = m.whole.buf := by
          funext d
          by_cases e : d = c
          · subst e; rw [upd_self, hbuf]
          · exact upd_ne _ _ e
        have he' : upd m.whole.ended c none = m.whole.ended := by
          funext d
          by_cases e : d = c
          · subst e; rw [upd_self, hend]
          · exact upd_ne _ _ e
        simp only [hb', he']
        rfl
      · rw [List.append_assoc, List.filterMap_append, hls]; rfl
      · by_cases e : d = c
        · subst e; simp [upd_self, opened, setConn]
        · simp only [upd_ne _ _ e, hf]
          simp only [opened, setConn_ne e]
    · have st' := Machine.Step.inner (env := env) (p := p) m lb s' st (fun c i e => hc ⟨c, i, e⟩)
      refine ⟨_, _, hr.tail st', rfl, ?_, hk, fun d => ?_⟩
      · rw [List.filterMap_append, hls]
        cases lb <;> rfl
      · dsimp only
        rw [hf d]
        have hC : Covered env p m.whole.fine.cfg := fun t f g k ht hk => tcp_covered htr t f g k ht hk
        obtain ⟨_, w2, _, hst⟩ := whole_step hb hC hI st hA
        have : (s'.fine.cfg.conns d = none) ↔ (m.whole.fine.cfg.conns d = none) := by
          cases lb with
          | none =>
            dsimp only at hst
            have hcc : s'.fine.cfg.conns = m.whole.fine.cfg.conns := congrArg (fun a : Tcp _ => a.cfg.conns) hst
            rw [hcc]
          | some lb =>
            dsimp only at hst
            exact ⟨fun h => tcp_some hst h, fun h => tcp_none (tcp_tame htr) hst (fun c i e => hc ⟨c, i, congrArg some e⟩) h⟩
        simp only [this]

end

end Usbip
