import Verif.Props.Machine
import Verif.Lemmas.Driver
import Verif.Lemmas.DriverStep
/-! Helper lemmas: a host and a process, over time. -/

namespace Usbip
open Spec

theorem wellFormed_weaken {b : Bool} {cmd : Cmd} (h : WellFormed true cmd) : WellFormed b cmd := by
  cases cmd with
  | reqDevlist st => exact fun _ => h rfl
  | reqImport st bs => exact ⟨h.1, fun _ => h.2 rfl⟩
  | submit => exact ⟨h.1, fun _ => h.2.1 rfl, h.2.2⟩
  | unlink => exact ⟨h.1, fun _ => h.2 rfl⟩

section
variable {τ : Type} {code : Code τ} {env : Env (HandlerId → τ)} {p : Profile} {devices : List Device}
  {w : World (HandlerId → τ)} {e : MachineExec code env p (Machine.init code devices w)} {c : Nat} {busid : Bytes}
  {devid : UInt32} {d : Nat → Driver}

theorem Spec.Alongside.wellFormed (ha : Alongside e c busid devid d) (n : Nat) : ∀ q ∈ (d n).said, WellFormed true q := by
  induction n with
  | zero =>
    rw [ha.start]
    intro q hq
    simp only [Driver.start, List.mem_singleton] at hq
    subst hq
    exact ⟨ha.busid, fun _ => rfl⟩
  | succ n ih => exact moves_wellFormed (ha.moves n) ih

theorem Spec.Alongside.said_mono (ha : Alongside e c busid devid d) {n m : Nat} (h : n ≤ m) : (d n).said <+: (d m).said ∧
    (d n).heard <+: (d m).heard ∧ (d n).issued <+: (d m).issued := by
  induction m with
  | zero => obtain rfl : n = 0 := by omega
            exact ⟨List.prefix_refl _, List.prefix_refl _, List.prefix_refl _⟩
  | succ m ih =>
    by_cases e : n = m + 1
    · subst e; exact ⟨List.prefix_refl _, List.prefix_refl _, List.prefix_refl _⟩
    · obtain ⟨h1, h2, h3⟩ := ih (by omega)
      obtain ⟨g1, g2, g3⟩ := moves_mono (ha.moves m)
      exact ⟨h1.trans g1, h2.trans g2, h3.trans g3⟩

/-- What has arrived, in labels and in the log, at one time. -/
structure Told (e : MachineExec code env p (Machine.init code devices w)) (c n : Nat)
    (ls : List (MachineLabel (HandlerId → τ))) (L : List (Bytes × Handled)) : Prop where
  inv : KInv code env p devices w ls (e.state n)
  log : MLog p (behindNet env p devices w ls) (e.state n) c (arrivedBy e.label c n) L
  labels : ∀ lb ∈ ls, ∃ k, k < n ∧ e.label k = some lb
  made : L = madeBy env p c (Net.init devices w) ((ls.flatMap toServer).filterMap tcpEvent)

theorem exists_told (hb : Behaves code env) (e : MachineExec code env p (Machine.init code devices w)) (c : Nat) :
    ∃ f : Nat → List (MachineLabel (HandlerId → τ)) × List (Bytes × Handled),
      (∀ n, Told e c n (f n).1 (f n).2 ∧ (f n).2 <+: (f (n + 1)).2) ∧ (f 0).1 = [] ∧
      ∀ n, (f (n + 1)).1 = (f n).1 ++ (e.label n).toList := by
  obtain ⟨f, h0, h⟩ := exists_chain (P := fun n x => Told e c n x.1 x.2)
    (R := fun n x y => x.2 <+: y.2 ∧ y.1 = x.1 ++ (e.label n).toList) ([], [])
    (by
      refine ⟨by rw [e.init]; exact .init code env p devices w, ?_, by simp, rfl⟩
      rw [e.init]
      exact ⟨fun _ => rfl, fun b fin hn => (by cases hn), fun hn => (by cases hn), fun _ => rfl⟩)
    (fun n x h => by
      rcases e.step n with st | ⟨h1, h2⟩
      · have h' := MLog.step hb h.inv h.log st
        refine ⟨(x.1 ++ (e.label n).toList, x.2 ++ madeBy env p c (behindNet env p devices w x.1)
          (((e.label n).toList.flatMap toServer).filterMap tcpEvent)), ⟨h.inv.step hb st, h', fun lb hlb => ?_, ?_⟩,
          List.prefix_append _ _, rfl⟩
        rotate_left
        · dsimp only
          rw [List.flatMap_append, List.filterMap_append, madeBy_append, ← h.made]
        rw [List.mem_append] at hlb
        rcases hlb with hlb | hlb
        · obtain ⟨k, hk, hl⟩ := h.labels lb hlb
          exact ⟨k, by omega, hl⟩
        · exact ⟨n, by omega, by simpa using hlb⟩
      · refine ⟨x, ⟨by rw [h2]; exact h.inv, ?_, fun lb hlb => ?_, h.made⟩, List.prefix_refl _, by rw [h1]; simp⟩
        · rw [h2]
          simp only [arrivedBy, h1, arrivesAt, List.append_nil]
          exact h.log
        · obtain ⟨k, hk, hl⟩ := h.labels lb hlb
          exact ⟨k, by omega, hl⟩)
  exact ⟨f, fun n => ⟨(h n).1, (h n).2.1⟩, by rw [h0], fun n => (h n).2.2⟩

/-- What one moment tells of the exchange. -/
theorem Told.asked_of {n : Nat} {ls : List (MachineLabel (HandlerId → τ))} {L : List (Bytes × Handled)} (h : Told e c n ls L)
    {said : List Cmd} (hw : ∀ q ∈ said, WellFormed true q) (hsp : arrivedBy e.label c n <+: said.flatMap wireCmd) :
    Log p (L.map (·.2)) ∧ (L.map (·.2)).map (·.1) <+: said := by
  by_cases hf : (e.state n).front c = .accepted
  · have hN := h.log.accepted hf
    refine ⟨hN.log, ?_⟩
    cases hx : (behindNet env p devices w ls).sys.conns c with
    | none => rw [(hN.none hx).2]; exact List.nil_prefix
    | some x =>
      have h1 := (List.prefix_append _ _).trans (hN.input x hx)
      have h2 := h1.trans hsp
      have := (reads_prefix (p := p) (L.map (fun e => (e.1, e.2.1))) said
        (fun e he => by
          obtain ⟨e', he', rfl⟩ := List.mem_map.mp he
          exact hN.reads e' he')
        (fun q hq => wellFormed_weaken (hw q hq)) (by rw [List.flatMap_map]; exact h2)).1
      rw [List.map_map] at this ⊢
      exact this
  · rw [h.log.other hf]
    exact ⟨by simp [Log], List.nil_prefix⟩

theorem Told.asked {n : Nat} {ls : List (MachineLabel (HandlerId → τ))} {L : List (Bytes × Handled)} (h : Told e c n ls L)
    (ha : Alongside e c busid devid d) : Log p (L.map (·.2)) ∧ (L.map (·.2)).map (·.1) <+: (d n).said :=
  h.asked_of (ha.wellFormed n) (ha.speaks n)

theorem Told.got {n : Nat} {ls : List (MachineLabel (HandlerId → τ))} {L : List (Bytes × Handled)} (hb : Behaves code env)
    (h : Told e c n ls L) : (e.state n).whole.got c <+: (L.map (·.2)).flatMap (·.2.2) ∧
    ∀ x, (e.state n).whole.fine.cfg.conns c = some x → (e.state n).whole.fine.cfg.idle c → x.status = .running →
      (e.state n).whole.got c = (L.map (·.2)).flatMap (·.2.2) ∧
      x.served = (L.map (·.2)).map (fun e => (e.1, e.2.1)) ∧ x.output = (L.map (·.2)).flatMap (·.2.2) := by
  obtain ⟨_, _, h3, h4, _, _, h7, h8⟩ := C81_explained code env hb p devices w _ _ h.inv.whole
  by_cases hf : (e.state n).front c = .accepted
  · have hN := h.log.accepted hf
    constructor
    · refine (h7 c).trans ?_
      unfold Spec.sentTo
      split
      · exact List.nil_prefix
      · rename_i x hx
        rw [List.flatMap_map]
        exact (hN.sent x hx).1
    · intro x hx hi hr
      have hc := h4 c hi
      rw [hx, Option.map_some] at hc
      have g1 := (hN.sent _ hc).2 hr
      have g2 := (hN.served _ hc).2 hr
      rw [h8 c hi]
      unfold Spec.sentTo
      rw [hc]
      dsimp only at g1 g2 ⊢
      rw [List.flatMap_map, List.map_map]
      exact ⟨g1, g2, g1⟩
  · rw [(h.inv.fresh hb hf).2.2]
    refine ⟨List.nil_prefix, fun x hx => ?_⟩
    rw [h.inv.conn c hf] at hx; cases hx

/-! ## The connection -/

/-- The first request in what has arrived is the first that was sent. -/
theorem next_request {cmd : Cmd} {packet more : Bytes} {cmds : List Cmd} (hw : WellFormed p.debugAssertions cmd)
    (hp : PacketFor cmd packet) (hws : ∀ q ∈ cmds, WellFormed p.debugAssertions q)
    (h : packet ++ more <+: cmds.flatMap wireCmd) : ∃ cs, cmds = cmd :: cs ∧ packet = wireCmd cmd := by
  obtain ⟨t, ht⟩ := h
  cases cmds with
  | nil =>
    have := PacketFor_pos hp
    simp only [List.flatMap_nil, List.append_eq_nil_iff] at ht
    rw [ht.1.1] at this; simp at this
  | cons q cs =>
    rw [List.append_assoc, List.flatMap_cons] at ht
    have h1 := arrived_packet p cmd packet (more ++ t) hw hp
    have hq := hws q (by simp)
    have h2 := arrived_packet p q (wireCmd q) (cs.flatMap wireCmd) hq (packetFor_wire q hq)
    rw [ht, h2] at h1
    simp only [Outcome.ok.injEq, Prod.mk.injEq, Arrived.mk.injEq] at h1
    obtain ⟨rfl, h3⟩ := h1
    rw [← h3] at ht
    exact ⟨cs, rfl, List.append_cancel_right ht⟩

/-- Nothing but requests is read from requests. -/
theorem reads_request {bs more : Bytes} {cmds : List Cmd} (hws : ∀ q ∈ cmds, WellFormed p.debugAssertions q)
    (h : bs ++ more <+: cmds.flatMap wireCmd) (hd : (readCommand p : Rd Arrived Cmd) ⟨bs⟩ ≠ .diverge) :
    ∃ cmd rest cs, (readCommand p : Rd Arrived Cmd) ⟨bs⟩ = .ok (cmd, ⟨rest⟩) ∧ cmds = cmd :: cs ∧ bs = wireCmd cmd ++ rest := by
  obtain ⟨t, ht⟩ := h
  rw [List.append_assoc] at ht
  have hm := arrived_more p bs (more ++ t) hd
  rw [ht] at hm
  cases cmds with
  | nil =>
    exfalso
    simp only [List.flatMap_nil, List.append_eq_nil_iff] at ht
    rw [ht.1] at hd
    exact hd (by rfl)
  | cons q cs =>
    have hq := hws q (by simp)
    rw [List.flatMap_cons, arrived_packet p q (wireCmd q) (cs.flatMap wireCmd) hq (packetFor_wire q hq)] at hm
    cases hr : (readCommand p : Rd Arrived Cmd) ⟨bs⟩ with
    | ok v =>
      obtain ⟨cmd, ⟨rest⟩⟩ := v
      rw [hr] at hm
      simp only [Outcome.bind_ok, Outcome.ok.injEq, Prod.mk.injEq, Arrived.mk.injEq] at hm
      obtain ⟨rfl, h3⟩ := hm
      refine ⟨q, rest, cs, rfl, rfl, ?_⟩
      rw [List.flatMap_cons, h3] at ht
      exact List.append_cancel_right (ht.trans (List.append_assoc _ _ _).symm)
    | err e => rw [hr] at hm; cases hm
    | panic => rw [hr] at hm; cases hm
    | diverge => exact absurd hr hd

end

/-- One step of a connection, with what arrives for it. -/
theorem conn_arrives {σ : Type} {env : Env σ} {p : Profile} {devices : List Device} {w : World σ} {ls : List (TcpLabel σ)}
    {s s' : Tcp σ} {lb : TcpLabel σ} (hT : TInv env p devices w ls s) (hL : LInv p ls s) (st : Tcp.Step env p s lb s')
    {c : Nat} {x : Conn} (hx : s.cfg.conns c = some x) :
    (∃ x', s'.cfg.conns c = some x' ∧ Kept c s s' x x' ∧
      x'.input.bytes ++ s'.buf c = x.input.bytes ++ s.buf c ++ arrivesAt c (some (.inner lb))) ∨
    (arrivesAt c (some (.inner lb)) = [] ∧ ((∃ y, TurnEnds p c ls s s' x y) ∨ ∃ y, TurnDrops c lb s s' x y)) := by
  have same : s'.cfg.conns c = s.cfg.conns c → s'.buf c = s.buf c → s'.ended c = s.ended c →
      arrivesAt c (some (.inner lb)) = [] → (∃ x', s'.cfg.conns c = some x' ∧ Kept c s s' x x' ∧
      x'.input.bytes ++ s'.buf c = x.input.bytes ++ s.buf c ++ arrivesAt c (some (.inner lb))) :=
    fun h1 h2 h3 h4 => ⟨x, h1.trans hx, .same x h2 h3, by rw [h2, h4, List.append_nil]⟩
  have hst := st
  cases st with
  | connect c' hc =>
    have : c ≠ c' := by rintro rfl; rw [hx] at hc; simp at hc
    exact .inl (same (setConn_ne this) rfl rfl rfl)
  | arrive c' bs hc he =>
    by_cases e : c = c'
    · subst e
      refine .inl ⟨x, hx, ⟨rfl, rfl, rfl, rfl, List.prefix_rfl, ⟨bs, by simp [upd_self], fun h => absurd he h⟩, fun _ h => h⟩, ?_⟩
      simp [upd_self, arrivesAt]
    · exact .inl (same rfl (upd_ne _ _ e) rfl (if_neg (fun h => e h.symm)))
  | hangup c' e hc he =>
    refine .inl ⟨x, hx, ⟨rfl, rfl, rfl, rfl, List.prefix_rfl, ⟨[], by simp, fun _ => rfl⟩, fun e' h => ?_⟩, ?_⟩
    · have : c ≠ c' := by rintro rfl; rw [he] at h; simp at h
      exact (upd_ne _ _ this).trans h
    · simp [arrivesAt]
  | take c' x0 bs rest hc hi hb =>
    by_cases e : c = c'
    · subst e
      rw [hx] at hc; cases hc
      refine .inl ⟨_, if_pos rfl, ⟨rfl, rfl, rfl, rfl, List.prefix_append _ _, ⟨[], ?_, fun _ => rfl⟩, fun _ h => h⟩, ?_⟩
      · simp [upd_self, hb]
      · simp [upd_self, hb, arrivesAt]
    · exact .inl (same (setConn_ne e) (upd_ne _ _ e) rfl rfl)
  | iterate t c' w x0 ht hc hr hi hd => exact .inl (same rfl rfl rfl rfl)
  | iterateEnd t c' w x0 e ht hc hr hi he hb => exact .inl (same rfl rfl rfl rfl)
  | piece t c' f k y bs ht ho hk hy hp => exact .inl (same rfl rfl rfl rfl)
  | sent t c' f k y ht ho hk hy hp => exact .inl (same rfl rfl rfl rfl)
  | other lb0 cfg' st0 h1 h2 h3 =>
    cases st0 with
    | connect c' input hc => exact absurd rfl (h1 _ _)
    | iterate t c' w x ht hc hr hi => exact absurd rfl (h2 _ _ _)
    | finish t f z hf hk =>
      by_cases ho : f.owner = some c
      · exact .inr ⟨rfl, .inl (ended_conn hT hL hf ho hx hst)⟩
      · exact .inl (same (finished_ne ho) rfl rfl rfl)
    | abandon t f hf hc =>
      by_cases ho : f.owner = some c
      · exact .inr ⟨rfl, .inr (dropped_conn hT hf ho hx hst)⟩
      · exact .inl (same (dropped_ne ho) rfl rfl rfl)
    | cancel c' x0 hc hr hi =>
      by_cases e : c = c'
      · subst e
        rw [hx] at hc; cases hc
        exact .inr ⟨rfl, .inr ⟨_, if_pos rfl, hi, rfl, rfl⟩⟩
      · exact .inl (same (setConn_ne e) rfl rfl rfl)
    | _ => exact .inl (same rfl rfl rfl rfl)

section
variable {τ : Type} {code : Code τ} {env : Env (HandlerId → τ)} {p : Profile} {devices : List Device}
  {w : World (HandlerId → τ)} {e : MachineExec code env p (Machine.init code devices w)} {c : Nat} {busid : Bytes}
  {devid : UInt32} {d : Nat → Driver}

/-- What is true of a connection that is fed with requests; `F`: something went wrong outside of the server. -/
structure Fed (said : List Cmd) (F : Prop) (log : List Handled) (s : Whole code) (c : Nat) (A : Bytes) : Prop where
  running : ∀ x, s.fine.cfg.conns c = some x → x.status = .running → s.ended c = none → x.served.length ≤ said.length ∧
    (said.take x.served.length).flatMap wireCmd ++ (x.input.bytes ++ s.buf c) = A
  part : ∀ x, s.fine.cfg.conns c = some x → x.status = .running → ∃ l0, l0 <+: log ∧
    x.served = l0.map (fun e => (e.1, e.2.1)) ∧ x.output = l0.flatMap (·.2.2)
  out : ∀ x, s.fine.cfg.conns c = some x → x.output <+: s.got c
  over : ∀ x, s.fine.cfg.conns c = some x → x.status ≠ .running → x.status = .panicked ∨ s.ended c ≠ none ∨ F
  rest : ∀ x, s.fine.cfg.conns c = some x → x.status ≠ .running → s.fine.cfg.idle c

theorem ended_stays {σ : Type} {env : Env σ} {p : Profile} {s s' : Tcp σ} {lb : TcpLabel σ} (st : Tcp.Step env p s lb s')
    (h : s.ended c ≠ none) : s'.ended c = s.ended c := by
  cases st with
  | hangup c' e hc he =>
    have : c ≠ c' := by rintro rfl; exact h he
    exact upd_ne _ _ this
  | _ => rfl

theorem Fed.same {said said' : List Cmd} {F F' : Prop} {log log' : List Handled} {s s' : Whole code} {A : Bytes}
    (h : Fed said F log s c A) (hs : said <+: said') (hF : F → F') (hl : log <+: log')
    (h1 : s'.fine.cfg.conns c = s.fine.cfg.conns c) (h2 : s'.ended c = s.ended c) (h3 : s'.buf c = s.buf c)
    (h4 : s'.got c = s.got c) (h5 : s'.fine.cfg.flights = s.fine.cfg.flights) : Fed said' F' log' s' c A := by
  refine ⟨fun x hx hr he => ?_, fun x hx hr => ?_, fun x hx => ?_, fun x hx hr => ?_, fun x hx hr => ?_⟩
  · obtain ⟨k1, k2⟩ := h.running x (h1 ▸ hx) hr (h2 ▸ he)
    refine ⟨Nat.le_trans k1 hs.length_le, ?_⟩
    obtain ⟨t, rfl⟩ := hs
    rw [List.take_append_of_le_length k1, h3]
    exact k2
  · obtain ⟨l0, k1, k2⟩ := h.part x (h1 ▸ hx) hr
    exact ⟨l0, k1.trans hl, k2⟩
  · rw [h4]; exact h.out x (h1 ▸ hx)
  · rw [h2]; exact (h.over x (h1 ▸ hx) hr).imp id (Or.imp id hF)
  · intro t f hf
    rw [h5] at hf
    exact h.rest x (h1 ▸ hx) hr t f hf

theorem Fed.none {said : List Cmd} {F : Prop} {log : List Handled} {s : Whole code} {A : Bytes}
    (h : s.fine.cfg.conns c = .none) : Fed said F log s c A :=
  ⟨fun x hx => (by rw [h] at hx; cases hx), fun x hx => (by rw [h] at hx; cases hx), fun x hx => (by rw [h] at hx; cases hx),
    fun x hx => (by rw [h] at hx; cases hx), fun x hx => (by rw [h] at hx; cases hx)⟩

/-- What one step of the server does to a connection that is fed with requests. -/
theorem Fed.inner (hb : Behaves code env) {ls : List (MachineLabel (HandlerId → τ))} {s : Machine code} {s' : Whole code}
    {lb : Option (TcpLabel (HandlerId → τ))} {said said' : List Cmd} {F F' : Prop} {log log' : List Handled} {A : Bytes}
    (hK : KInv code env p devices w ls s) (h : Fed said F log s.whole c A) (st : Whole.Step code env p s.whole lb s')
    (hc : s.whole.fine.cfg.conns c ≠ .none) (hws : ∀ q ∈ said, WellFormed p.debugAssertions q) (hA : A <+: said.flatMap wireCmd)
    (hs : said <+: said') (hl : log <+: log') (hF : F → F') (hF2 : ∀ l ∈ ls.flatMap toServer, Fault c l → F')
    (hF3 : ∀ l, lb = some l → Fault c l → F')
    (hidle : ∀ x, s'.fine.cfg.conns c = some x → s'.fine.cfg.idle c → x.status = .running →
      x.served = log'.map (fun e => (e.1, e.2.1)) ∧ x.output = log'.flatMap (·.2.2)) :
    Fed said' F' log' s' c (A ++ arrivesAt c (lb.map .inner)) := by
  obtain ⟨hI, w1, hA1, hr⟩ := whole_reach hb hK.whole
  have hC : Covered env p s.whole.fine.cfg := fun t f g k ht hk => tcp_covered hr t f g k ht hk
  obtain ⟨hI2, w2, hA2, hst⟩ := whole_step hb hC hI st hA1
  have hT := TInv.reach hr
  have hL := LInv.reach hr
  cases lb with
  | none =>
    dsimp only at hst
    rw [show arrivesAt c (Option.map MachineLabel.inner (.none : Option (TcpLabel (HandlerId → τ)))) = [] from rfl,
      List.append_nil]
    refine h.same hs hF hl ?_ ?_ ?_ ?_ (congrArg (fun a : Tcp _ => a.cfg.flights) hst)
    · exact congrFun (congrArg (fun a : Tcp _ => a.cfg.conns) hst) c
    · exact congrFun (congrArg (fun a : Tcp _ => a.ended) hst) c
    · exact congrFun (congrArg (fun a : Tcp _ => a.buf) hst) c
    · exact congrFun (congrArg (fun a : Tcp _ => a.got) hst) c
  | some lb =>
    dsimp only at hst
    rw [Option.map_some]
    cases hx : s.whole.fine.cfg.conns c with
    | none => exact absurd hx hc
    | some x =>
      have hT' := TInv.reach (hr.tail hst)
      have grow : s.whole.got c <+: s'.got c := by
        rcases got_step hst c with ⟨h1, _⟩ | ⟨_, _, _, _, bs, _, _, _, _, _, _, h1⟩
        · rw [show s'.got c = s.whole.got c from h1]; exact List.prefix_refl _
        · rw [show s'.got c = s.whole.got c ++ bs from h1]; exact List.prefix_append _ _
      have hend : s.whole.ended c ≠ .none → s'.ended c = s.whole.ended c := fun hn => ended_stays hst hn
      by_cases hxr : x.status = .running
      rotate_left
      · have hi := h.rest x hx hxr
        obtain ⟨g1, g2, y, g3, g4, g5, g6, g7⟩ := over_step hst
          (show (s.whole.tcp.withWorld w1).cfg.conns c = some x from hx) hxr hi
        have g2 : s'.got c = s.whole.got c := g2
        have g3 : s'.fine.cfg.conns c = some y := g3
        refine ⟨fun z hz hr' he => ?_, fun z hz hr' => ?_, fun z hz => ?_, fun z hz hr' => ?_, fun z hz hr' => g1⟩ <;>
          rw [g3] at hz <;> cases hz
        · rw [g4] at hr'; exact absurd hr' hxr
        · rw [g4] at hr'; exact absurd hr' hxr
        · rw [g6, g2]; exact h.out x hx
        · rw [g4]
          rcases h.over x hx hxr with k | k | k
          · exact .inl k
          · exact .inr (.inl (by rw [hend k]; exact k))
          · exact .inr (.inr (hF k))
      rcases conn_arrives hT hL hst (show (s.whole.tcp.withWorld w1).cfg.conns c = some x from hx) with
        ⟨x', hx', hk, hby⟩ | ⟨ha, hcase⟩
      · have hx' : s'.fine.cfg.conns c = some x' := hx'
        have hby : x'.input.bytes ++ s'.buf c = x.input.bytes ++ s.whole.buf c ++ arrivesAt c (some (.inner lb)) := hby
        have hr2 : x'.status = .running := hk.status.trans hxr
        refine ⟨fun y hy hr' he => ?_, fun y hy hr' => ?_, fun y hy => ?_, fun y hy hr' => ?_, fun y hy hr' => ?_⟩ <;>
          rw [hx'] at hy <;> cases hy
        · have he0 : s.whole.ended c = .none := Classical.byContradiction fun hn => hn (by rw [← hend hn]; exact he)
          obtain ⟨k1, k2⟩ := h.running x hx hxr he0
          rw [hk.served]
          refine ⟨Nat.le_trans k1 hs.length_le, ?_⟩
          obtain ⟨t, rfl⟩ := hs
          rw [List.take_append_of_le_length k1, hby, ← List.append_assoc, k2]
        · obtain ⟨l0, k1, k2⟩ := h.part x hx hxr
          exact ⟨l0, k1.trans hl, by rw [hk.served, hk.output]; exact k2⟩
        · rw [hk.output]; exact (h.out x hx).trans grow
        · exact absurd hr2 hr'
        · exact absurd hr2 hr'
      · rw [ha, List.append_nil]
        rcases hcase with ⟨y, hy, hi, hbf, he, hrdy, wr, haf, u, hu⟩ | ⟨y, hy, hi, hyx, hfa⟩
        · have hy : s'.fine.cfg.conns c = some y := hy
          have hi : s'.fine.cfg.idle c := hi
          have hbf : s'.buf c = s.whole.buf c := hbf
          have he : s'.ended c = s.whole.ended c := he
          have hg : s'.got c = y.output := by
            have := hT'.idle c hi
            rw [show (s'.tcp.withWorld w2).cfg.conns c = some y from hy] at this
            exact this
          have hfault : wr ≠ .full → F' := fun hw => hF2 _ hu ⟨rfl, hw⟩
          have key : s.whole.ended c = .none → ∃ cmd rest cs,
              (readCommand p : Rd Arrived Cmd) ⟨x.input.bytes⟩ = .ok (cmd, ⟨rest⟩) ∧
              said.drop x.served.length = cmd :: cs ∧ x.input.bytes = wireCmd cmd ++ rest := by
            intro he0
            obtain ⟨k1, k2⟩ := h.running x hx hxr he0
            refine reads_request (p := p) (more := s.whole.buf c) (fun q hq => hws q (List.mem_of_mem_drop hq)) ?_ ?_
            · rw [← k2, ← List.take_append_drop x.served.length said, List.flatMap_append] at hA
              rw [List.take_append_of_le_length (by simp; omega), List.take_take, Nat.min_self,
                List.prefix_append_right_inj] at hA
              exact hA
            · rcases hrdy with hd | ⟨⟨er, hn⟩, _⟩
              · exact hd
              · have hn : s.whole.ended c = some er := hn
                rw [he0] at hn; cases hn
          refine ⟨fun z hz hr' he' => ?_, fun z hz hr' => ?_, fun z hz => ?_, fun z hz hr' => ?_, fun z hz hr' => hi⟩ <;>
            rw [hy] at hz <;> cases hz
          · have he0 : s.whole.ended c = .none := he ▸ he'
            obtain ⟨cmd, rest, cs, q1, q2, q3⟩ := key he0
            obtain ⟨k1, k2⟩ := h.running x hx hxr he0
            unfold After at haf
            rw [q1] at haf
            rcases haf with ⟨resp, ⟨_, a2, _⟩, a4⟩ | a | ⟨_, a⟩
            · have a4 : y.input.bytes = rest := a4
              have hlen : y.served.length = x.served.length + 1 := by rw [a2]; simp
              have hlt : x.served.length < said.length := by
                have := congrArg List.length q2
                simp only [List.length_drop, List.length_cons] at this
                omega
              have htake : said.take (x.served.length + 1) = said.take x.served.length ++ [cmd] := by
                rw [List.take_add, q2]; rfl
              rw [hlen]
              refine ⟨Nat.le_trans hlt hs.length_le, ?_⟩
              obtain ⟨t, rfl⟩ := hs
              rw [List.take_append_of_le_length hlt, htake, a4, hbf, ← k2, q3]
              simp
            · rw [a] at hr'; cases hr'
            · exact absurd hr' a
          · obtain ⟨k1, k2⟩ := hidle y hy hi hr'
            exact ⟨log', List.prefix_refl _, k1, k2⟩
          · rw [hg]; exact List.prefix_refl _
          · by_cases he0 : s.whole.ended c = .none
            · obtain ⟨cmd, rest, cs, q1, q2, q3⟩ := key he0
              unfold After at haf
              rw [q1] at haf
              rcases haf with ⟨resp, ⟨a1, _⟩, _⟩ | a | ⟨a, _⟩
              · exact absurd a1 hr'
              · exact .inl a
              · exact .inr (.inr (hfault a))
            · exact .inr (.inl (by rw [he]; exact he0))
        · have hy : s'.fine.cfg.conns c = some y := hy
          have hi : s'.fine.cfg.idle c := hi
          have hg : s'.got c = y.output := by
            have := hT'.idle c hi
            rw [show (s'.tcp.withWorld w2).cfg.conns c = some y from hy] at this
            exact this
          have hns : y.status ≠ .running := by rw [hyx]; simp
          refine ⟨fun z hz hr' he' => ?_, fun z hz hr' => ?_, fun z hz => ?_, fun z hz hr' => ?_, fun z hz hr' => hi⟩ <;>
            rw [hy] at hz <;> cases hz
          · exact absurd hr' hns
          · exact absurd hr' hns
          · rw [hg]; exact List.prefix_refl _
          · exact .inr (.inr (hF3 lb rfl hfa))

theorem Told.accepted {n : Nat} {ls : List (MachineLabel (HandlerId → τ))} {L : List (Bytes × Handled)} (hb : Behaves code env)
    (h : Told e c n ls L) (hf : (e.state n).front c = .accepted) : (e.state n).whole.fine.cfg.conns c ≠ none := by
  intro hc
  obtain ⟨_, w', _, hr⟩ := whole_reach hb h.inv.whole
  have hP : PInv ((Proc.init devices w).run env p (ls.filterMap machineEvent)) := (PInv.init devices w).run _
  have hidle : (e.state n).whole.fine.cfg.idle c := fun t f hf' ho => by
    obtain ⟨x, hx⟩ := (tcp_tame hr).owner t f c hf' ho
    have : (e.state n).whole.fine.cfg.conns c = some x := hx
    rw [hc] at this; cases this
  obtain ⟨_, _, _, h4, _⟩ := C81_explained code env hb p devices w _ _ h.inv.whole
  have := h4 c hidle
  rw [hc] at this
  refine (hP.conn c).mpr (by rw [h.inv.front]; exact hf) ?_
  rw [h.inv.net]
  exact this

/-- Something went wrong on connection `c` outside of the server before time `n`. -/
def Faulty (e : MachineExec code env p (Machine.init code devices w)) (c n : Nat) : Prop :=
  ∃ k lb, k < n ∧ e.label k = some (.inner lb) ∧ Fault c lb

theorem Told.faulty {n : Nat} {ls : List (MachineLabel (HandlerId → τ))} {L : List (Bytes × Handled)}
    (h : Told e c n ls L) {l : TcpLabel (HandlerId → τ)} (hl : l ∈ ls.flatMap toServer) (hf : Fault c l) : Faulty e c n := by
  obtain ⟨lb, h1, h2⟩ := List.mem_flatMap.mp hl
  obtain ⟨k, hk, hlk⟩ := h.labels lb h1
  cases lb with
  | inner l' =>
    simp only [toServer, List.mem_singleton] at h2
    subst h2
    exact ⟨k, l, hk, hlk, hf⟩
  | accept k' c' bs fin =>
    simp only [toServer, List.mem_cons] at h2
    rcases h2 with rfl | rfl | h2
    · exact hf.elim
    · exact hf.elim
    · cases fin with
      | none => simp at h2
      | some er => simp only [Option.map_some, Option.toList_some, List.mem_singleton] at h2; subst h2; exact hf.elim
  | _ => simp [toServer] at h2

theorem fed_of (hb : Behaves code env) {said : Nat → List Cmd} (hmono : ∀ n, said n <+: said (n + 1))
    (hwf : ∀ n, ∀ q ∈ said n, WellFormed true q) (hsp : ∀ n, arrivedBy e.label c n <+: (said n).flatMap wireCmd)
    (f : Nat → List (MachineLabel (HandlerId → τ)) × List (Bytes × Handled))
    (hf : ∀ n, Told e c n (f n).1 (f n).2 ∧ (f n).2 <+: (f (n + 1)).2) (n : Nat) :
    Fed (said n) (Faulty e c n) ((f n).2.map (·.2)) (e.state n).whole c (arrivedBy e.label c n) := by
  induction n with
  | zero => exact Fed.none (by rw [e.init]; rfl)
  | succ n ih =>
    have hT := (hf n).1
    have hT' := (hf (n + 1)).1
    have hs := hmono n
    have hl : ((f n).2.map (·.2)) <+: ((f (n + 1)).2.map (·.2)) := by
      obtain ⟨t, ht⟩ := (hf n).2
      rw [← ht, List.map_append]
      exact List.prefix_append _ _
    have hF : Faulty e c n → Faulty e c (n + 1) := fun ⟨k, lb, h1, h2⟩ => ⟨k, lb, by omega, h2⟩
    have hws : ∀ q ∈ (said n), WellFormed p.debugAssertions q := fun q hq => wellFormed_weaken (hwf n q hq)
    have hidle := fun x hx hi hr => (hT'.got hb).2 x hx hi hr
    show Fed _ _ _ _ c (arrivedBy e.label c n ++ arrivesAt c (e.label n))
    have hF3 : ∀ l, e.label n = some (.inner l) → Fault c l → Faulty e c (n + 1) := fun l h1 h2 => ⟨n, l, by omega, h1, h2⟩
    have hnew : ∀ x, (e.state (n + 1)).whole.fine.cfg.conns c = some x → (e.state (n + 1)).front c = .accepted := fun x hx =>
      Classical.byContradiction fun hn => by rw [hT'.inv.conn c hn] at hx; cases hx
    have hwait := hT.log.waiting
    have hconn := hT.inv.conn c
    have hacc := hT.accepted hb
    have hK := hT.inv
    have hA := hsp n
    have hF2 : ∀ l ∈ (f n).1.flatMap toServer, Fault c l → Faulty e c (n + 1) := fun l h1 h2 => hF (hT.faulty h1 h2)
    have st := e.step n
    generalize (f n).1 = ls at hF2 hK
    generalize ((f n).2.map (·.2)) = log at ih hl
    generalize ((f (n + 1)).2.map (·.2)) = log' at hl hidle ⊢
    generalize Faulty e c (n + 1) = F' at hF hF2 hF3 ⊢
    generalize Faulty e c n = F at ih hF
    generalize e.label n = lb at st hF3 ⊢
    generalize arrivedBy e.label c n = A at hwait hA ih ⊢
    generalize e.state (n + 1) = s' at st hidle hnew ⊢
    generalize e.state n = s at st ih hwait hconn hacc hK
    rcases st with st | ⟨rfl, rfl⟩
    rotate_left
    · rw [show arrivesAt c (none : Option (MachineLabel (HandlerId → τ))) = [] from rfl, List.append_nil]
      exact ih.same hs hF hl rfl rfl rfl rfl rfl
    have keep : arrivesAt c lb = [] → s'.whole = s.whole → Fed (said (n + 1)) F' log' s'.whole c (A ++ arrivesAt c lb) := by
      intro h1 h2
      rw [h1, List.append_nil, h2]
      exact ih.same hs hF hl rfl rfl rfl rfl rfl
    cases st with
    | serve k b hk => exact keep rfl rfl
    | acceptErr k q hk => exact keep rfl rfl
    | dial k q hk hf => exact keep rfl rfl
    | refuse k hk hf => exact keep rfl rfl
    | dropServe k q hk => exact keep rfl rfl
    | earlyEnd b er hf => exact keep rfl rfl
    | early c' b bs hf =>
      by_cases h : c = c'
      · subst h
        exact Fed.none (hconn (by rw [hf]; simp))
      · exact keep (if_neg (fun e => h e.symm)) rfl
    | accept k c' q bs fin hk hf =>
      rw [show arrivesAt c (some (.accept k c' bs fin : MachineLabel (HandlerId → τ))) = [] from rfl, List.append_nil]
      by_cases h : c = c'
      · subst h
        have hx : setConn s.whole.fine.cfg.conns c (Conn.new ⟨[], .unexpectedEof⟩) c = some (Conn.new ⟨[], .unexpectedEof⟩) := by
          simp [setConn]
        refine ⟨fun x hx' hr he => ?_, fun x hx' hr => ?_, fun x hx' => ?_, fun x hx' hr => ?_, fun x hx' hr => ?_⟩ <;>
          dsimp only at hx' <;> rw [hx] at hx' <;> cases hx'
        · refine ⟨Nat.zero_le _, ?_⟩
          dsimp only
          rw [upd_self, hwait _ _ hf]
          simp [Conn.new]
        · exact ⟨[], List.nil_prefix, rfl, rfl⟩
        · exact List.nil_prefix
        · exact absurd rfl hr
        · exact absurd rfl hr
      · exact ih.same hs hF hl (setConn_ne h) (upd_ne _ _ h) (upd_ne _ _ h) rfl rfl
    | inner lb w' st hl' =>
      cases hc : s.whole.fine.cfg.conns c with
      | none =>
        refine Fed.none ?_
        cases hc' : w'.fine.cfg.conns c with
        | none => rfl
        | some x => exact absurd hc (hacc (hnew x hc'))
      | some x =>
        exact Fed.inner hb hK ih st (by rw [hc]; simp) hws hA hs hl hF hF2
          (fun l h1 h2 => hF3 l (by rw [h1]; rfl) h2)
          (fun x hx hi hr => (hidle x hx hi hr).2)

theorem fed (hb : Behaves code env) (ha : Alongside e c busid devid d)
    (f : Nat → List (MachineLabel (HandlerId → τ)) × List (Bytes × Handled))
    (hf : ∀ n, Told e c n (f n).1 (f n).2 ∧ (f n).2 <+: (f (n + 1)).2) (n : Nat) :
    Fed (d n).said (Faulty e c n) ((f n).2.map (·.2)) (e.state n).whole c (arrivedBy e.label c n) :=
  fed_of hb (said := fun n => (d n).said) (fun n => (moves_mono (ha.moves n)).1) (fun n => ha.wellFormed n) ha.speaks f hf n

theorem exchanged_told (hb : Behaves code env) (ha : Alongside e c busid devid d)
    (f : Nat → List (MachineLabel (HandlerId → τ)) × List (Bytes × Handled))
    (hf : ∀ n, Told e c n (f n).1 (f n).2 ∧ (f n).2 <+: (f (n + 1)).2) : Exchanged e c d (fun n => (f n).2.map (·.2)) := by
  refine ⟨fun n => ((hf n).1.asked ha).1, fun n => ?_, fun n => ((hf n).1.asked ha).2,
    fun n => ((hf n).1.got hb).1, fun n x hx hr => (fed hb ha f hf n).part x hx hr, fun n x hx hi hr => ?_⟩
  · obtain ⟨t, ht⟩ := (hf n).2
    rw [← ht, List.map_append]
    exact List.prefix_append _ _
  · obtain ⟨h1, h2, _⟩ := ((hf n).1.got hb).2 x hx hi hr
    exact ⟨h1, h2⟩

theorem exchanged (hb : Behaves code env) (ha : Alongside e c busid devid d) : ∃ log, Exchanged e c d log := by
  obtain ⟨f, hf, _⟩ := exists_told hb e c
  exact ⟨_, exchanged_told hb ha f hf⟩

theorem Spec.Exchanged.mono {log : Nat → List Handled} (h : Exchanged e c d log) {n m : Nat} (hm : n ≤ m) : log n <+: log m := by
  induction m with
  | zero => obtain rfl : n = 0 := by omega
            exact List.prefix_refl _
  | succ m ih =>
    by_cases e : n = m + 1
    · subst e; exact List.prefix_refl _
    · exact (ih (by omega)).trans (h.grows m)

theorem bytes_mono {l l' : List Handled} (h : l <+: l') : l.flatMap (·.2.2) <+: l'.flatMap (·.2.2) := by
  obtain ⟨t, rfl⟩ := h
  rw [List.flatMap_append]
  exact List.prefix_append _ _

/-- The host, over time. -/
theorem host_inv (ha : Alongside e c busid devid d) {log : Nat → List Handled} (h : Exchanged e c d log) (n : Nat)
    (hm : ∀ e ∈ log n, Modest e.2.1) : DInv (log n) (d n) ∧ Known p (log n) (d n) ∧ (d n).next = none := by
  have hheard : (d n).heard <+: (log n).flatMap (·.2.2) := by
    cases n with
    | zero => rw [ha.start]; exact List.nil_prefix
    | succ n => exact ((ha.hears n).trans (h.got n)).trans (bytes_mono (h.grows n))
  refine ⟨?_, ⟨h.ok n, hm, h.asked n, hheard⟩, ?_⟩
  · clear hheard
    induction n with
    | zero => rw [ha.start]; exact ⟨ha.busid, rfl, rfl, rfl, rfl, rfl, rfl, rfl⟩
    | succ n ih =>
      have hg := h.grows n
      have hm' : ∀ e ∈ log n, Modest e.2.1 := fun e he => hm e (hg.mem he)
      have h1 := moves_inv (ha.moves n) (ih hm') (h.ok n) hm' (h.asked n) ((ha.hears n).trans (h.got n))
      obtain ⟨t, ht⟩ := hg
      rw [← ht]
      exact h1.extend (by rw [ht]; exact h.asked (n + 1))
  · clear hheard hm
    induction n with
    | zero => rw [ha.start]; rfl
    | succ n ih => exact moves_quiet (ha.moves n) ih

end

/-! ## A host that has processed what it has received -/

theorem fits_import {e : Handled} {st : UInt32} {b : Bytes} (h : e.1 = .reqImport st b) : Fits e.1 e.2.1 := by
  rw [h]; trivial

/-- Replies to requests for transfers and cancellations have 48 bytes or more. -/
theorem reply_length {p : Profile} {e : Handled} (ha : Answers e.1 e.2.1) (hb : e.2.1.toBytes p = .ok e.2.2)
    {devid : UInt32} {i : Item} (hi : e.1 = i.cmd devid) : 48 ≤ e.2.2.length := by
  rw [hi] at ha
  cases i with
  | sub seq u =>
    rcases ha with ⟨buf, h⟩ | h
    · rw [h] at hb
      have := (submit_fields hb []).2.2.2.2.2.1
      omega
    · rw [h] at hb
      have := (submit_fields hb []).2.2.2.2.2.1
      omega
  | unl seq t =>
    rw [show e.2.1 = _ from ha] at hb
    have := (unlink_fields hb []).2.2
    omega

/-- The first reply that is not processed. -/
theorem attached_head {p : Profile} {log : List Handled} {d : Driver} {e e2 : Handled} {l1 l2 : List Handled} {todo : List Item}
    (hE : Known p log d) (hA : Attached log d e l1 (e2 :: l2) todo) : 48 ≤ e2.2.2.length := by
  obtain ⟨ha, hbytes, _⟩ := hE.ok e2 (by rw [hA.split]; simp)
  have hcm := hE.cmds
  rw [hA.split, hA.said] at hcm
  simp only [List.cons_append, List.map_cons, List.map_append, List.cons_prefix_cons] at hcm
  have h2 := (List.prefix_append_right_inj (l1.map (·.1))).mp hcm.2
  cases todo with
  | nil => simp at h2
  | cons i todo =>
    simp only [List.map_cons, List.cons_prefix_cons] at h2
    exact reply_length ha hbytes h2.1

/-- A host that has processed all it can has not received something that must not happen. -/
theorem not_overrun {p : Profile} {log : List Handled} {d : Driver} (h : DInv log d) (hE : Known p log d)
    (hq : d.next = none) (hp : d.phase ≠ .broken) : ¬ Overrun log d.heard := by
  rintro ⟨pre, e, post, h1, h2, h3, h4⟩
  have small : d.said = [.reqImport 0 d.busid] → False := by
    intro hs
    have hc := hE.cmds
    rw [hs, h1] at hc
    obtain ⟨t, ht⟩ := hc
    cases pre with
    | nil =>
      simp only [List.nil_append, List.map_cons, List.cons_append, List.cons.injEq] at ht
      exact h3 (fits_import ht.1)
    | cons a pre => simp at ht
  have hs := h.state
  cases hph : d.phase with
  | importing => rw [hph] at hs; exact small hs.1
  | refused => rw [hph] at hs; exact small hs.2.1
  | broken => exact hp hph
  | attached =>
    rw [hph] at hs
    obtain ⟨e0, l1, l2, todo, hA⟩ := hs
    have h5 : ∃ pre2, pre = e0 :: l1 ++ pre2 ∧ l2 = pre2 ++ e :: post := by
      have hsp := hA.split
      rw [h1] at hsp
      rcases List.append_eq_append_iff.mp hsp with ⟨a, g1, g2⟩ | ⟨a, g1, g2⟩
      · cases a with
        | nil => exact ⟨[], by simpa using g1.symm, by simpa using g2.symm⟩
        | cons b a =>
          exfalso
          simp only [List.cons_append, List.cons.injEq] at g2
          have hmem : b ∈ e0 :: l1 := by rw [g1]; simp
          rw [g2.1] at h3
          rcases List.mem_cons.mp hmem with rfl | hmem
          · obtain ⟨dev, hd, _⟩ := hA.first
            rw [hd] at h3
            exact h3 (by cases b.1 <;> trivial)
          · exact h3 (hA.fits b hmem)
      · exact ⟨a, g1, g2⟩
    obtain ⟨pre2, rfl, h6⟩ := h5
    have hrx : (pre2.flatMap (·.2.2)).length + 48 ≤ d.rx.length := by
      rw [hA.heard] at h4
      simp only [List.cons_append, List.flatMap_cons, List.flatMap_append, List.length_append] at h4
      omega
    cases pre2 with
    | nil =>
      rw [List.nil_append] at h6
      rw [h6] at hA
      have := (attached_next h hE hph hA (by simp at hrx; omega)).1 h3
      rw [hq] at this; cases this
    | cons e2 pre2 =>
      rw [List.cons_append] at h6
      rw [h6] at hA
      simp only [List.flatMap_cons, List.length_append] at hrx
      obtain ⟨d', _, k, _⟩ := (attached_next h hE hph hA (by omega)).2.2 (h2 e2 (by simp)) (by omega)
      rw [hq] at k; cases k

/-- A host that has processed all it can has processed all replies it has received in full. -/
theorem caught_up {p : Profile} {log : List Handled} {d : Driver} (h : DInv log d) (hE : Known p log d)
    (hq : d.next = none) (hp : d.phase ≠ .broken) {l0 : List Handled} (h0 : l0 <+: log) (hn : l0 ≠ [])
    (hl : l0.flatMap (·.2.2) <+: d.heard) :
    d.phase ≠ .importing ∧ ∀ e l1 l2 todo, d.phase = .attached → Attached log d e l1 l2 todo → l0.length ≤ 1 + l1.length := by
  refine ⟨fun hph => ?_, fun e l1 l2 todo hph hA => ?_⟩
  · have hs := h.state
    rw [hph] at hs
    obtain ⟨h1, h2, h3, h4, h5, h6⟩ := hs
    have hlog : ∃ e, log = [e] := by
      have hc := hE.cmds.length_le
      rw [h1] at hc
      have := h0.length_le
      have := List.length_pos_iff.mpr hn
      simp only [List.length_map, List.length_cons, List.length_nil] at hc
      exact List.length_eq_one_iff.mp (by omega)
    obtain ⟨e, rfl⟩ := hlog
    have hl0 : l0 = [e] := by
      have := List.length_pos_iff.mpr hn
      exact h0.eq_of_length (by have := h0.length_le; simp at this ⊢; omega)
    subst hl0
    have hrx : d.rx = e.2.2 := by
      have g1 := hE.heard
      rw [h6] at g1 hl
      simp only [List.flatMap_cons, List.flatMap_nil, List.append_nil] at g1 hl
      exact g1.eq_of_length (Nat.le_antisymm g1.length_le hl.length_le)
    obtain ⟨ha, hbytes, hid⟩ := hE.ok e (by simp)
    have hec : e.1 = .reqImport 0 d.busid := by
      have := hE.cmds
      rw [h1] at this
      simpa using this
    rw [hec] at ha
    simp only [Driver.next, hph, Driver.import, hrx] at hq
    rcases ha with ⟨dev, hr⟩ | hr
    · rw [hr] at hbytes
      obtain ⟨g1, g2, g3, g4, _⟩ := granted_fields hbytes []
      rw [if_neg (by omega)] at hq
      split at hq
      · cases hq
      split at hq
      · cases hq
      rw [if_neg (by omega)] at hq
      split at hq <;> cases hq
    · rw [hr] at hbytes
      obtain ⟨g1, g2, g3, g4⟩ := refused_fields hbytes []
      rw [if_neg (by omega)] at hq
      split at hq
      · cases hq
      split at hq
      · cases hq
      · rename_i hx; simp only [ne_eq, Decidable.not_not] at hx
        rw [List.append_nil, hx] at g3
        cases g3
  · refine Classical.byContradiction fun hlt => ?_
    cases l2 with
    | nil =>
      have := h0.length_le
      rw [hA.split] at this
      simp at this
      omega
    | cons e2 l2 =>
      have h48 := attached_head hE hA
      have hpre : e :: l1 ++ [e2] <+: l0 := by
        refine List.prefix_of_prefix_length_le (l₃ := log) ?_ h0 (by simp; omega)
        rw [hA.split]
        exact ⟨l2, by simp⟩
      have hrx : e2.2.2.length ≤ d.rx.length := by
        have := ((bytes_mono hpre).trans hl).length_le
        rw [hA.heard] at this
        simp only [List.cons_append, List.flatMap_cons, List.flatMap_append, List.length_append, List.flatMap_nil,
          List.append_nil] at this
        omega
      obtain ⟨k1, _, k3⟩ := attached_next h hE hph hA (by omega)
      by_cases hf : Fits e2.1 e2.2.1
      · obtain ⟨d', _, k, _⟩ := k3 hf hrx
        rw [hq] at k; cases k
      · rw [k1 hf] at hq; cases hq

/-- Is this a request for a transfer? -/
def isSubmit : Cmd → Bool
  | .submit .. => true
  | _ => false

theorem issued_count {d d' : Driver} (h : d.Moves d') (h0 : d.issued.length = (d.said.filter isSubmit).length) :
    d'.issued.length = (d'.said.filter isSubmit).length := by
  induction h with
  | refl => exact h0
  | submit h seq u hp hf hw ih => dsimp only; rw [List.filter_append, List.length_append, List.length_append, ih]; rfl
  | unlink h seq t hp hf ht ih => dsimp only; rw [List.filter_append, List.length_append, ih]; rfl
  | hear h bs ih =>
    obtain ⟨h1, _, _, _, h5⟩ := hear_ghosts _ bs
    rw [h1, h5]; exact ih

theorem outcome_count {p : Profile} {l : List Handled} (h : Log p l) :
    ((l.map (·.1)).filter isSubmit).length = (l.filterMap outcome).length := by
  induction l with
  | nil => rfl
  | cons e l ih =>
    have ih := ih (fun e he => h e (by simp [he]))
    obtain ⟨ha, _⟩ := h e (by simp)
    obtain ⟨cmd, r, bs⟩ := e
    dsimp only at ha
    cases cmd with
    | submit =>
      rcases ha with ⟨buf, rfl⟩ | rfl <;>
      rw [List.map_cons, List.filter_cons_of_pos rfl, List.filterMap_cons_some (f := outcome) rfl, List.length_cons, List.length_cons, ih]
    | _ => rw [List.map_cons, List.filter_cons_of_neg (by simp [isSubmit]), List.filterMap_cons_none (f := outcome) rfl, ih]

section
variable {τ : Type} {code : Code τ} {env : Env (HandlerId → τ)} {p : Profile} {devices : List Device}
  {w : World (HandlerId → τ)} {e : MachineExec code env p (Machine.init code devices w)} {c : Nat} {busid : Bytes}
  {devid : UInt32} {d : Nat → Driver}

theorem host_count (ha : Alongside e c busid devid d) (n : Nat) :
    (d n).issued.length = ((d n).said.filter isSubmit).length := by
  induction n with
  | zero => rw [ha.start]; rfl
  | succ n ih => exact issued_count (ha.moves n) ih

theorem moves_ids {d d' : Driver} (h : d.Moves d') : d'.busid = d.busid ∧ d'.devid = d.devid := by
  induction h with
  | refl => exact ⟨rfl, rfl⟩
  | submit h seq u hp hf hw ih => exact ih
  | unlink h seq t hp hf ht ih => exact ih
  | hear h bs ih =>
    obtain ⟨_, _, h3, h4, _⟩ := hear_ghosts _ bs
    exact ⟨h3.trans ih.1, h4.trans ih.2⟩

theorem host_ids (ha : Alongside e c busid devid d) (n : Nat) : (d n).busid = busid ∧ (d n).devid = devid := by
  induction n with
  | zero => rw [ha.start]; exact ⟨rfl, rfl⟩
  | succ n ih =>
    obtain ⟨h1, h2⟩ := moves_ids (ha.moves n)
    exact ⟨h1.trans ih.1, h2.trans ih.2⟩

theorem arrivedBy_mono {σ} {label : Nat → Option (MachineLabel σ)} {c n m : Nat} (h : n ≤ m) :
    arrivedBy label c n <+: arrivedBy label c m := by
  induction m with
  | zero => obtain rfl : n = 0 := by omega
            exact List.prefix_refl _
  | succ m ih =>
    by_cases e : n = m + 1
    · subst e; exact List.prefix_refl _
    · exact (ih (by omega)).trans (List.prefix_append _ _)

theorem accepted_stays (hb : Behaves code env) {n m : Nat} (hf : (e.state n).front c = .accepted) (h : n ≤ m) :
    (e.state m).front c = .accepted := by
  obtain ⟨j, rfl⟩ := Nat.exists_eq_add_of_le h
  clear h
  induction j with
  | zero => exact hf
  | succ j ih =>
    obtain ⟨ls, hK⟩ := exec_inv hb e (n + j)
    have hP : PInv ((Proc.init devices w).run env p (ls.filterMap machineEvent)) := (PInv.init devices w).run _
    have st := e.step (n + j)
    rw [← Nat.add_assoc]
    generalize e.state (n + j + 1) = s' at st ⊢
    generalize e.state (n + j) = s at st ih hK
    generalize e.label (n + j) = lb at st
    rcases st with st | ⟨rfl, rfl⟩
    rotate_left
    · exact ih
    cases st with
    | dial k c' q hk hf' =>
      have : c ≠ c' := by rintro rfl; rw [ih] at hf'; cases hf'
      exact (upd_ne _ _ this).trans ih
    | refuse k c' hk hf' =>
      have : c ≠ c' := by rintro rfl; rw [ih] at hf'; cases hf'
      exact (upd_ne _ _ this).trans ih
    | accept k c' q bs fin hk hf' =>
      have : c ≠ c' := by rintro rfl; rw [ih] at hf'; cases hf'
      exact (upd_ne _ _ this).trans ih
    | early c' b bs hf' =>
      have : c ≠ c' := by rintro rfl; rw [ih] at hf'; cases hf'
      exact (upd_ne _ _ this).trans ih
    | earlyEnd c' b er hf' =>
      have : c ≠ c' := by rintro rfl; rw [ih] at hf'; cases hf'
      exact (upd_ne _ _ this).trans ih
    | dropServe k q hk =>
      refine (if_neg fun hq => ?_).trans ih
      obtain ⟨b, er, hw⟩ := hP.queued k q (by rw [hK.calls]; exact hk) c hq
      rw [hK.front, ih] at hw; cases hw
    | _ => exact ih

end

end Usbip
