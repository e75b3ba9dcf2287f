import Verif.Spec.Driver
import Verif.Lemmas.MachineLive
import Verif.Lemmas.Server
import Verif.Lemmas.Client
import Verif.Props.Codec
/-! Helper lemmas: what a server has made of the requests of a client. -/

namespace Usbip
open Spec

/-- These bytes, and no others, are taken for this command. -/
def Reads (p : Profile) (used : Bytes) (cmd : Cmd) : Prop :=
  ∀ rest fin, (readCommand p : Rd Stream Cmd) ⟨used ++ rest, fin⟩ = .ok (cmd, ⟨rest, fin⟩)

theorem reads_wire {p : Profile} {cmd : Cmd} (hw : WellFormed p.debugAssertions cmd) : Reads p (wireCmd cmd) cmd := by
  intro rest fin
  obtain ⟨bs, _, rfl, h⟩ := C01_roundtrip p cmd rest fin hw
  exact h

theorem reads_ne {p : Profile} {used : Bytes} {cmd : Cmd} (h : Reads p used cmd) : used ≠ [] := by
  rintro rfl
  have h1 := h [] .unexpectedEof
  have h2 := (C02_pipeline p [] [] .unexpectedEof (by simp)).2.2
  rw [List.nil_append, h2] at h1
  cases h1

/-- What is read from a beginning of what was sent is what was sent. -/
theorem reads_prefix {p : Profile} (L : List (Bytes × Cmd)) : ∀ (cmds : List Cmd),
    (∀ e ∈ L, Reads p e.1 e.2) → (∀ c ∈ cmds, WellFormed p.debugAssertions c) →
    L.flatMap (·.1) <+: cmds.flatMap wireCmd →
    L.map (·.2) <+: cmds ∧ ∀ more, L.flatMap (·.1) ++ more = cmds.flatMap wireCmd →
      more = (cmds.drop L.length).flatMap wireCmd := by
  induction L with
  | nil => intro cmds _ _ _; exact ⟨List.nil_prefix, fun more h => by simpa using h⟩
  | cons e L ih =>
    intro cmds hL hw hp
    cases cmds with
    | nil =>
      exfalso
      have := List.prefix_nil.mp hp
      simp only [List.flatMap_cons, List.append_eq_nil_iff] at this
      exact reads_ne (hL e (by simp)) this.1
    | cons cmd cmds =>
      obtain ⟨more, hm⟩ := hp
      simp only [List.flatMap_cons, List.append_assoc] at hm
      have h1 := hL e (by simp) (L.flatMap (·.1) ++ more) .unexpectedEof
      have h2 := reads_wire (hw cmd (by simp)) (cmds.flatMap wireCmd) .unexpectedEof
      rw [hm, h2] at h1
      simp only [Outcome.ok.injEq, Prod.mk.injEq, Stream.mk.injEq, and_true] at h1
      obtain ⟨h3, h4⟩ := h1
      obtain ⟨g1, g2⟩ := ih cmds (fun e he => hL e (by simp [he])) (fun c hc => hw c (by simp [hc])) ⟨more, h4.symm⟩
      refine ⟨by rw [List.map_cons, ← h3]; exact List.cons_prefix_cons.mpr ⟨rfl, g1⟩, fun more' hm' => ?_⟩
      rw [← h4] at hm
      have hu : e.1 = wireCmd cmd := List.append_cancel_right hm
      simp only [List.flatMap_cons, List.append_assoc, hu, List.append_cancel_left_eq] at hm'
      simpa using g2 more' hm'

/-- What the server has made of what has arrived from client `c`. -/
structure NetLog {σ} (p : Profile) (n : Net σ) (c : Nat) (A : Bytes) (L : List (Bytes × Handled)) : Prop where
  reads : ∀ e ∈ L, Reads p e.1 e.2.1
  log : Log p (L.map (·.2))
  none : n.sys.conns c = none → A = [] ∧ L = []
  input : ∀ x, n.sys.conns c = some x → L.flatMap (·.1) ++ (if x.status = .running then x.input.bytes else []) <+: A
  whole : ∀ x, n.sys.conns c = some x → x.status = .running → n.ended c = .none → L.flatMap (·.1) ++ x.input.bytes = A
  sent : ∀ x, n.sys.conns c = some x → x.output <+: L.flatMap (·.2.2.2) ∧
    (x.status = .running → x.output = L.flatMap (·.2.2.2))
  served : ∀ x, n.sys.conns c = some x → x.served <+: L.map (fun e => (e.2.1, e.2.2.1)) ∧
    (x.status = .running → x.served = L.map (fun e => (e.2.1, e.2.2.1)))

theorem NetLog.same {σ} {p : Profile} {n n' : Net σ} {c : Nat} {A : Bytes} {L : List (Bytes × Handled)}
    (h : NetLog p n c A L) (h1 : n'.sys.conns c = n.sys.conns c) (h2 : n'.ended c = n.ended c) : NetLog p n' c A L := by
  obtain ⟨a, b, d, e, f, g, i⟩ := h
  rw [← h1] at d e f g i; rw [← h2] at f
  exact ⟨a, b, d, e, f, g, i⟩

/-- The connection is over, or about to be. -/
theorem NetLog.stop {σ} {p : Profile} {n n' : Net σ} {c : Nat} {A : Bytes} {L : List (Bytes × Handled)} {x y : Conn}
    (h : NetLog p n c A L) (hx : n.sys.conns c = some x) (hy : n'.sys.conns c = some y) (hs : y.status ≠ .running)
    (ho : y.output = x.output) (hv : y.served = x.served) : NetLog p n' c A L where
  reads := h.reads
  log := h.log
  none := fun hn => by rw [hy] at hn; cases hn
  input := fun z hz => by
    rw [hy] at hz; cases hz
    rw [if_neg hs, List.append_nil]
    exact (List.prefix_append _ _).trans (h.input x hx)
  whole := fun z hz hr => by rw [hy] at hz; cases hz; exact absurd hr hs
  sent := fun z hz => by rw [hy] at hz; cases hz; rw [ho]; exact ⟨(h.sent x hx).1, fun hr => absurd hr hs⟩
  served := fun z hz => by rw [hy] at hz; cases hz; rw [hv]; exact ⟨(h.served x hx).1, fun hr => absurd hr hs⟩

theorem serve_import {σ} {env : Env σ} {p : Profile} {s : Shared σ} {cur : Option Bytes} {cmd : Cmd} {r : Resp}
    (h : (s.serve env p cur cmd).1 = .ok r) (st : UInt32) (b : Bytes) (dev : Device) (hc : cmd = .reqImport st b)
    (hr : r = .repImport 0 (some dev)) : dev.busId = cstr b := by
  subst hc; subst hr
  simp only [Shared.serve, Shared.import] at h
  split at h
  · rename_i d rest ht
    obtain ⟨_, _, _, _, hd, _⟩ := takeFirst_some.mp ht
    simp only [Outcome.ok.injEq, opRepImportSuccess, Resp.repImport.injEq, Option.some.injEq, true_and] at h
    rw [← h, hd, busidCompare_eq]
  · simp [opRepImportFail] at h

/-- What an iteration makes of the next request, if it reads one and has a response. -/
def Conn.made {σ} (env : Env σ) (p : Profile) (s : Shared σ) (x : Conn) : List (Bytes × Handled) :=
  match readCommand p x.input with
  | .ok (cmd, rest) =>
    match (s.serve env p x.current cmd).1 with
    | .ok resp =>
      match resp.toBytes p with
      | .ok bytes => [(x.input.bytes.take (x.input.bytes.length - rest.bytes.length), cmd, resp, bytes)]
      | _ => []
    | _ => []
  | _ => []

/-- What an event makes of the next request of client `c`. -/
def made {σ} (env : Env σ) (p : Profile) (c : Nat) (n : Net σ) : NetEvent σ → List (Bytes × Handled)
  | .iterate d _ =>
    if d = c ∧ n.ready p c = true then
      match n.sys.conns c with
      | some x => if x.status = .running then x.made env p n.sys.shared else []
      | none => []
    else []
  | _ => []

/-- What a history makes of the requests of client `c`. -/
def madeBy {σ} (env : Env σ) (p : Profile) (c : Nat) : Net σ → List (NetEvent σ) → List (Bytes × Handled)
  | _, [] => []
  | n, ev :: evs => made env p c n ev ++ madeBy env p c (n.step env p ev) evs

theorem madeBy_append {σ} (env : Env σ) (p : Profile) (c : Nat) (es es' : List (NetEvent σ)) : ∀ n : Net σ,
    madeBy env p c n (es ++ es') = madeBy env p c n es ++ madeBy env p c (n.run env p es) es' := by
  induction es with
  | nil => intro n; rfl
  | cons e es ih => intro n; simp only [List.cons_append, madeBy, ih, List.append_assoc]; rfl

theorem made_none {σ} (env : Env σ) (p : Profile) (c : Nat) (n : Net σ) (ev : NetEvent σ) (h : n.sys.conns c = none) :
    made env p c n ev = [] := by
  cases ev with
  | iterate d w => simp only [made, h]; split <;> rfl
  | _ => rfl

/-- One iteration of the loop of connection `c`. -/
theorem NetLog.iterate {σ} {env : Env σ} {p : Profile} {n n' : Net σ} {c : Nat} {A : Bytes}
    {L : List (Bytes × Handled)} {x : Conn} {w : WriteRes} (h : NetLog p n c A L) (hx : n.sys.conns c = some x)
    (hr : x.status = .running) (hy : n'.sys.conns c = some (x.iterate env p n.sys.shared w).2) (he : n'.ended c = n.ended c) :
    NetLog p n' c A (L ++ x.made env p n.sys.shared) := by
  have stop : x.made env p n.sys.shared = [] →
      ((x.iterate env p n.sys.shared w).2.status ≠ .running ∧ (x.iterate env p n.sys.shared w).2.output = x.output ∧
      (x.iterate env p n.sys.shared w).2.served = x.served) → NetLog p n' c A (L ++ x.made env p n.sys.shared) := fun h0 ⟨h1, h2, h3⟩ => by
    rw [h0, List.append_nil]; exact h.stop hx hy h1 h2 h3
  cases hrd : readCommand p x.input with
  | ok v =>
    obtain ⟨cmd, rest⟩ := v
    cases hs : n.sys.shared.serve env p x.current cmd with
    | mk o r =>
      obtain ⟨s', cur'⟩ := r
      cases o with
      | ok resp =>
        cases hb : resp.toBytes p with
        | ok bytes =>
          obtain ⟨used, hu, hu2, _⟩ := framed_readCommand p _ _ _ hrd
          have hmade : x.made env p n.sys.shared = [(used, cmd, resp, bytes)] := by
            unfold Conn.made
            rw [hrd]
            dsimp only
            rw [hs]
            dsimp only
            rw [hb]
            dsimp only
            rw [hu]
            simp
          rw [hmade]
          clear stop
          have hin := h.input x hx
          have hsn := (h.sent x hx).2 hr
          have hsv := (h.served x hx).2 hr
          rw [if_pos hr] at hin
          have hxi : x.input.bytes = used ++ rest.bytes := by rw [hu]
          have hlog : Log p ((L ++ [(used, cmd, resp, bytes)]).map (·.2)) := by
            intro e hmem
            rw [List.map_append, List.mem_append] at hmem
            rcases hmem with hmem | hmem
            · exact h.log e hmem
            · simp only [List.map_cons, List.map_nil, List.mem_singleton] at hmem
              subst hmem
              have ho : (n.sys.shared.serve env p x.current cmd).1 = .ok resp := by rw [hs]
              exact ⟨serve_answers env p _ _ _ _ ho, hb, fun st b dev h1 h2 => serve_import ho st b dev h1 h2⟩
          have hreads : ∀ e ∈ L ++ [(used, cmd, resp, bytes)], Reads p e.1 e.2.1 := by
            intro e hmem
            rw [List.mem_append] at hmem
            rcases hmem with hmem | hmem
            · exact h.reads e hmem
            · simp only [List.mem_singleton] at hmem
              subst hmem
              exact hu2
          have gone : ((x.iterate env p n.sys.shared w).2.status ≠ .running ∧
              (x.iterate env p n.sys.shared w).2.output <+: x.output ++ bytes ∧
              (x.iterate env p n.sys.shared w).2.served = x.served) → NetLog p n' c A (L ++ [(used, cmd, resp, bytes)]) := by
            rintro ⟨h1, h2, h3⟩
            refine ⟨hreads, hlog, fun hn => (by rw [hy] at hn; cases hn), ?_, ?_, ?_, ?_⟩
            · intro z hz; rw [hy] at hz; cases hz
              rw [if_neg h1, List.append_nil]
              rw [hxi, ← List.append_assoc] at hin
              simpa using (List.prefix_append _ _).trans hin
            · intro z hz hrun; rw [hy] at hz; cases hz; exact absurd hrun h1
            · intro z hz; rw [hy] at hz; cases hz
              exact ⟨by rw [hsn] at h2; simpa using h2, fun hrun => absurd hrun h1⟩
            · intro z hz; rw [hy] at hz; cases hz
              refine ⟨?_, fun hrun => absurd hrun h1⟩
              rw [h3, hsv, List.map_append]
              exact List.prefix_append _ _
          cases w with
          | full =>
            have e : (x.iterate env p n.sys.shared .full).2 = { x with
                input := rest, current := cur', output := x.output ++ bytes, served := x.served ++ [(cmd, resp)] } := by
              unfold Conn.iterate; rw [hrd]; simp only [hs, hb]
            rw [e] at hy
            refine ⟨hreads, hlog, fun hn => (by rw [hy] at hn; cases hn), ?_, ?_, ?_, ?_⟩
            · intro z hz; rw [hy] at hz; cases hz
              rw [hxi, ← List.append_assoc] at hin
              simpa [hr] using hin
            · intro z hz _ hen; rw [hy] at hz; cases hz
              have := h.whole x hx hr (he ▸ hen)
              rw [hxi, ← List.append_assoc] at this
              simpa using this
            · intro z hz; rw [hy] at hz; cases hz
              have : x.output ++ bytes = (L ++ [(used, cmd, resp, bytes)]).flatMap (·.2.2.2) := by rw [hsn]; simp
              exact ⟨this ▸ List.prefix_refl _, fun _ => this⟩
            · intro z hz; rw [hy] at hz; cases hz
              have : x.served ++ [(cmd, resp)] = (L ++ [(used, cmd, resp, bytes)]).map (fun e => (e.2.1, e.2.2.1)) := by
                rw [hsv]; simp
              exact ⟨this ▸ List.prefix_refl _, fun _ => this⟩
          | fail k er =>
            refine gone ?_
            unfold Conn.iterate; rw [hrd]; simp only [hs, hb]
            exact ⟨by simp, (List.prefix_append_right_inj _).mpr (List.take_prefix _ _), trivial⟩
          | cut k =>
            refine gone ?_
            unfold Conn.iterate; rw [hrd]; simp only [hs, hb]
            exact ⟨by simp, (List.prefix_append_right_inj _).mpr (List.take_prefix _ _), trivial⟩
        | err er => exact stop (by simp [Conn.made, hrd, hs, hb]) (by unfold Conn.iterate; rw [hrd]; simp only [hs, hb]; simp)
        | panic => exact stop (by simp [Conn.made, hrd, hs, hb]) (by unfold Conn.iterate; rw [hrd]; simp only [hs, hb]; simp)
        | diverge => exact stop (by simp [Conn.made, hrd, hs, hb]) (by unfold Conn.iterate; rw [hrd]; simp only [hs, hb]; simp)
      | err er => exact stop (by simp [Conn.made, hrd, hs]) (by unfold Conn.iterate; rw [hrd]; simp only [hs]; simp)
      | panic => exact stop (by simp [Conn.made, hrd, hs]) (by unfold Conn.iterate; rw [hrd]; simp only [hs]; simp)
      | diverge => exact stop (by simp [Conn.made, hrd, hs]) (by unfold Conn.iterate; rw [hrd]; simp only [hs]; simp)
  | err er =>
    cases hrel : n.sys.shared.release x.current with
    | some s' =>
      exact stop (by simp [Conn.made, hrd]) (by unfold Conn.iterate; rw [hrd]; simp only [hrel]; split <;> simp)
    | none => exact stop (by simp [Conn.made, hrd]) (by unfold Conn.iterate; rw [hrd]; simp only [hrel]; simp)
  | panic => exact stop (by simp [Conn.made, hrd]) (by unfold Conn.iterate; rw [hrd]; simp)
  | diverge => exact stop (by simp [Conn.made, hrd]) (by unfold Conn.iterate; rw [hrd]; simp)

/-- What arrives from `c`. -/
def arrivals {σ} (c : Nat) : NetEvent σ → Bytes
  | .arrive c' bs => if c' = c then bs else []
  | _ => []

theorem NetLog.step {σ} (env : Env σ) {p : Profile} {n : Net σ} {c : Nat} {A : Bytes}
    {L : List (Bytes × Handled)} (h : NetLog p n c A L) (ev : NetEvent σ)
    (ha : ∀ bs, ev = .arrive c bs → n.sys.conns c ≠ .none) :
    NetLog p (n.step env p ev) c (A ++ arrivals c ev) (L ++ made env p c n ev) := by
  have same : ∀ n' : Net σ, n'.sys.conns c = n.sys.conns c → n'.ended c = n.ended c →
      NetLog p n' c (A ++ []) (L ++ []) := fun n' h1 h2 => by
    rw [List.append_nil, List.append_nil]; exact h.same h1 h2
  cases ev with
  | connect d =>
    show NetLog p _ c (A ++ []) (L ++ [])
    simp only [Net.step, Sys.step]
    cases hd : n.sys.conns d with
    | some y => exact same _ rfl rfl
    | none =>
      by_cases hcd : c = d
      · subst hcd
        obtain ⟨rfl, rfl⟩ := h.none hd
        have hy : setConn n.sys.conns c (Conn.new ⟨[], .unexpectedEof⟩) c = some (Conn.new ⟨[], .unexpectedEof⟩) := by
          simp [setConn]
        rw [List.append_nil, List.append_nil]
        refine ⟨by simp, by simp [Log], fun _ => ⟨rfl, rfl⟩, ?_, ?_, ?_, ?_⟩
        · intro z hz; dsimp only at hz; rw [hy] at hz; cases hz; simp [Conn.new]
        · intro z hz; dsimp only at hz; rw [hy] at hz; cases hz; simp [Conn.new]
        · intro z hz; dsimp only at hz; rw [hy] at hz; cases hz; simp [Conn.new]
        · intro z hz; dsimp only at hz; rw [hy] at hz; cases hz; simp [Conn.new]
      · exact same _ (setConn_ne hcd) rfl
  | arrive d bs =>
    simp only [Net.step, arrivals]
    by_cases hcd : d = c
    · subst hcd
      rw [if_pos rfl]
      cases hx : n.sys.conns d with
      | none => exact absurd hx (ha bs rfl)
      | some x =>
        cases hen : n.ended d with
        | none =>
          have hy : setConn n.sys.conns d { x with input := ⟨x.input.bytes ++ bs, x.input.fin⟩ } d =
              some { x with input := ⟨x.input.bytes ++ bs, x.input.fin⟩ } := by simp [setConn]
          rw [show made env p d n (.arrive d bs) = [] from rfl, List.append_nil]
          refine ⟨h.reads, h.log, fun hn => (by dsimp only at hn; rw [hy] at hn; cases hn), ?_, ?_, ?_, ?_⟩
          · intro z hz; dsimp only at hz; rw [hy] at hz; cases hz
            by_cases hr : x.status = .running
            · have := h.whole x hx hr hen
              rw [if_pos hr, ← this]
              dsimp only; rw [List.append_assoc]
              exact List.prefix_refl _
            · have := h.input x hx
              rw [if_neg hr] at this ⊢
              exact this.trans (List.prefix_append _ _)
          · intro z hz hr _; dsimp only at hz; rw [hy] at hz; cases hz
            dsimp only at hr ⊢
            rw [← List.append_assoc, h.whole x hx hr hen]
          · intro z hz; dsimp only at hz; rw [hy] at hz; cases hz; exact h.sent x hx
          · intro z hz; dsimp only at hz; rw [hy] at hz; cases hz; exact h.served x hx
        | some er =>
          rw [show made env p d n (.arrive d bs) = [] from rfl, List.append_nil]
          refine ⟨h.reads, h.log, fun hn => (by rw [hx] at hn; cases hn), fun z hz => (h.input z hz).trans (List.prefix_append _ _),
            fun z hz hr hn => (by rw [hen] at hn; cases hn), h.sent, h.served⟩
    · rw [if_neg hcd]
      split
      · exact same _ (setConn_ne (fun e => hcd e.symm)) rfl
      · exact same _ rfl rfl
  | hangup d er =>
    show NetLog p _ c (A ++ []) (L ++ [])
    simp only [Net.step]
    split
    · rename_i x hx hen
      by_cases hcd : c = d
      · subst hcd
        have hy : setConn n.sys.conns c { x with input := ⟨x.input.bytes, er⟩ } c =
            some { x with input := ⟨x.input.bytes, er⟩ } := by simp [setConn]
        rw [List.append_nil, List.append_nil]
        refine ⟨h.reads, h.log, fun hn => (by dsimp only at hn; rw [hy] at hn; cases hn), ?_, ?_, ?_, ?_⟩
        · intro z hz; dsimp only at hz; rw [hy] at hz; cases hz; exact h.input x hx
        · intro z hz hr hn; simp at hn
        · intro z hz; dsimp only at hz; rw [hy] at hz; cases hz; exact h.sent x hx
        · intro z hz; dsimp only at hz; rw [hy] at hz; cases hz; exact h.served x hx
      · exact same _ (setConn_ne hcd) (if_neg hcd)
    · exact same _ rfl rfl
  | iterate d w =>
    rw [show arrivals c (.iterate d w : NetEvent σ) = [] from rfl]
    simp only [Net.step]
    by_cases hr : n.ready p d = true
    · rw [if_pos hr]
      simp only [Sys.step]
      by_cases hcd : d = c
      · subst hcd
        have hm : made env p d n (.iterate d w) = match n.sys.conns d with
            | some x => if x.status = .running then x.made env p n.sys.shared else []
            | .none => [] := by
          simp only [made, hr, and_self, if_true]
        rw [hm]
        cases hx : n.sys.conns d with
        | none => exact same _ rfl rfl
        | some x =>
          dsimp only
          by_cases hrun : x.status = .running
          · rw [if_pos hrun, if_pos hrun, List.append_nil]
            exact h.iterate (env := env) (w := w) hx hrun (by simp [setConn]) rfl
          · rw [if_neg hrun, if_neg hrun]
            exact same _ rfl rfl
      · have hm : made env p c n (.iterate d w) = [] := if_neg (fun hn => hcd hn.1)
        rw [hm]
        cases hx : n.sys.conns d with
        | none => exact same _ rfl rfl
        | some x =>
          dsimp only
          split
          · exact same _ (setConn_ne (fun e => hcd e.symm)) rfl
          · exact same _ rfl rfl
    · rw [if_neg hr]
      have hm : made env p c n (.iterate d w) = [] := by
        simp only [made]
        exact if_neg (fun hn => hr (by rw [hn.1]; exact hn.2))
      rw [hm]
      exact same _ rfl rfl
  | cancel d =>
    show NetLog p _ c (A ++ []) (L ++ [])
    simp only [Net.step, Sys.step]
    cases hx : n.sys.conns d with
    | none => exact same _ rfl rfl
    | some x =>
      dsimp only
      split
      · by_cases hcd : c = d
        · subst hcd
          rw [List.append_nil, List.append_nil]
          exact h.stop (y := { x with status := .cancelled }) hx (by simp [setConn]) (by simp) rfl rfl
        · exact same _ (setConn_ne hcd) rfl
      · exact same _ rfl rfl
  | addDevice d => exact same _ rfl rfl
  | removeDevice i => exact same _ rfl rfl
  | user f cr => exact same _ rfl rfl

theorem arrives_event {σ} (c : Nat) (l : TcpLabel σ) : arrivesAt c (some (.inner l)) =
    match tcpEvent l with | some ne => arrivals c ne | none => [] := by
  cases l with
  | arrive d bs => rfl
  | hangup d er => rfl
  | take d => rfl
  | piece d bs => rfl
  | server l =>
    show [] = _
    cases h : tcpEvent (.server l) with
    | none => rfl
    | some ne =>
      simp only [tcpEvent, Option.map_eq_some_iff] at h
      obtain ⟨ev, _, rfl⟩ := h
      cases ev <;> rfl

section
variable {τ : Type} {code : Code τ} {env : Env (HandlerId → τ)} {p : Profile} {devices : List Device}
  {w : World (HandlerId → τ)}

/-- What a process has made of what has arrived from client `c` at its host. -/
structure MLog (p : Profile) (n : Net (HandlerId → τ)) (s : Machine code) (c : Nat) (A : Bytes)
    (L : List (Bytes × Handled)) : Prop where
  unknown : s.front c = .unknown → A = []
  waiting : ∀ b fin, s.front c = .waiting b fin → A = b
  accepted : s.front c = .accepted → NetLog p n c A L
  other : s.front c ≠ .accepted → L = []

/-- The server behind a process. -/
abbrev behindNet (env : Env (HandlerId → τ)) (p : Profile) (devices : List Device) (w : World (HandlerId → τ))
    (ls : List (MachineLabel (HandlerId → τ))) : Net (HandlerId → τ) :=
  (Net.init devices w).run env p ((ls.flatMap toServer).filterMap tcpEvent)

theorem behindNet_snoc (ls : List (MachineLabel (HandlerId → τ))) (lb : MachineLabel (HandlerId → τ)) :
    behindNet env p devices w (ls ++ [lb]) = (behindNet env p devices w ls).run env p ((toServer lb).filterMap tcpEvent) := by
  simp [behindNet, Net.run]

theorem MLog.front {n n' : Net (HandlerId → τ)} {s s' : Machine code} {c : Nat} {A : Bytes} {L : List (Bytes × Handled)}
    (h : MLog p n s c A L) (hn : n' = n) (hf : s'.front c = s.front c) : MLog p n' s' c A L := by
  subst hn
  obtain ⟨a, b, d, e⟩ := h
  rw [← hf] at a b d e
  exact ⟨a, b, d, e⟩

theorem MLog.step (hb : Behaves code env) {ls : List (MachineLabel (HandlerId → τ))} {s s' : Machine code}
    {lb : Option (MachineLabel (HandlerId → τ))} {c : Nat} {A : Bytes} {L : List (Bytes × Handled)}
    (hK : KInv code env p devices w ls s) (h : MLog p (behindNet env p devices w ls) s c A L)
    (st : Machine.Step code env p s lb s') :
    MLog p (behindNet env p devices w (ls ++ lb.toList)) s' c (A ++ arrivesAt c lb)
      (L ++ madeBy env p c (behindNet env p devices w ls) ((lb.toList.flatMap toServer).filterMap tcpEvent)) := by
  have hPI : PInv ((Proc.init devices w).run env p (ls.filterMap machineEvent)) := (PInv.init devices w).run _
  have hconn : (behindNet env p devices w ls).sys.conns c ≠ none ↔ s.front c = .accepted := by
    have := hPI.conn c
    rw [hK.net, hK.front] at this
    exact this
  have none : ∀ lb : MachineLabel (HandlerId → τ), toServer lb = [] →
      madeBy env p c (behindNet env p devices w ls) (((some lb).toList.flatMap toServer).filterMap tcpEvent) = [] := by
    intro lb hl
    simp [hl, madeBy]
  have quiet : ∀ lb : MachineLabel (HandlerId → τ), toServer lb = [] → ∀ s' : Machine code, s'.front c = s.front c →
      arrivesAt c (some lb) = [] →
      MLog p (behindNet env p devices w (ls ++ (some lb).toList)) s' c (A ++ arrivesAt c (some lb))
        (L ++ madeBy env p c (behindNet env p devices w ls) (((some lb).toList.flatMap toServer).filterMap tcpEvent)) := by
    intro lb hl s' hf ha
    rw [ha, List.append_nil, none lb hl, List.append_nil]
    refine h.front ?_ hf
    rw [Option.toList_some, behindNet_snoc, hl]; rfl
  have keep : ∀ lb : MachineLabel (HandlerId → τ), toServer lb = [] →
      behindNet env p devices w (ls ++ (some lb).toList) = behindNet env p devices w ls := by
    intro lb hl; rw [Option.toList_some, behindNet_snoc, hl]; rfl
  cases st with
  | serve k b hk => exact quiet _ rfl _ rfl rfl
  | acceptErr k q hk => exact quiet _ rfl _ rfl rfl
  | dial k d q hk hf =>
    by_cases e : c = d
    · subst e
      rw [keep _ rfl, none _ rfl, List.append_nil]
      have hL := h.other (by rw [hf]; simp)
      have hA := h.unknown hf
      subst hL; subst hA
      refine ⟨fun hn => ?_, fun b fin hn => ?_, fun hn => ?_, fun _ => rfl⟩ <;> dsimp only at hn <;> rw [upd_self] at hn <;> cases hn
      rfl
    · exact quiet _ rfl _ (upd_ne _ _ e) rfl
  | refuse k d hk hf =>
    by_cases e : c = d
    · subst e
      rw [keep _ rfl, none _ rfl, List.append_nil]
      have hL := h.other (by rw [hf]; simp)
      subst hL
      refine ⟨fun hn => ?_, fun b fin hn => ?_, fun hn => ?_, fun _ => rfl⟩ <;> dsimp only at hn <;> rw [upd_self] at hn <;> cases hn
    · exact quiet _ rfl _ (upd_ne _ _ e) rfl
  | dropServe k q hk =>
    by_cases e : c ∈ q
    · rw [keep _ rfl, none _ rfl, List.append_nil]
      have hq := hPI.queued k q (by rw [hK.calls]; exact hk) c e
      rw [hK.front] at hq
      obtain ⟨b, er, hf⟩ := hq
      have hL := h.other (by rw [hf]; simp)
      subst hL
      refine ⟨fun hn => ?_, fun b fin hn => ?_, fun hn => ?_, fun _ => rfl⟩ <;> dsimp only at hn <;> rw [if_pos e] at hn <;> cases hn
    · exact quiet _ rfl _ (if_neg e) rfl
  | early d b bs hf =>
    by_cases e : c = d
    · subst e
      rw [keep _ rfl, none _ rfl, List.append_nil]
      have hL := h.other (by rw [hf]; simp)
      have hA := h.waiting _ _ hf
      subst hL; subst hA
      have ha : arrivesAt c (some (.early c bs : MachineLabel (HandlerId → τ))) = bs := if_pos rfl
      rw [ha]
      refine ⟨fun hn => ?_, fun b fin hn => ?_, fun hn => ?_, fun _ => rfl⟩ <;> dsimp only at hn <;> rw [upd_self] at hn <;> cases hn
      rfl
    · exact quiet _ rfl _ (upd_ne _ _ e) (if_neg (fun h => e h.symm))
  | earlyEnd d b er hf =>
    by_cases e : c = d
    · subst e
      rw [keep _ rfl, none _ rfl, List.append_nil]
      have hL := h.other (by rw [hf]; simp)
      have hA := h.waiting _ _ hf
      subst hL; subst hA
      have ha : arrivesAt c (some (.earlyEnd c er : MachineLabel (HandlerId → τ))) = [] := rfl
      rw [ha, List.append_nil]
      refine ⟨fun hn => ?_, fun b fin hn => ?_, fun hn => ?_, fun _ => rfl⟩ <;> dsimp only at hn <;> rw [upd_self] at hn <;> cases hn
      rfl
    · exact quiet _ rfl _ (upd_ne _ _ e) rfl
  | accept k d q bs fin hk hf =>
    have ha : arrivesAt c (some (.accept k d bs fin : MachineLabel (HandlerId → τ))) = [] := rfl
    have hm : madeBy env p c (behindNet env p devices w ls)
        (((some (.accept k d bs fin : MachineLabel (HandlerId → τ))).toList.flatMap toServer).filterMap tcpEvent) = [] := by
      cases fin <;> rfl
    rw [ha, List.append_nil, hm, List.append_nil, Option.toList_some, behindNet_snoc]
    have arr : ∀ (n : Net (HandlerId → τ)) (A' : Bytes), NetLog p n c A' L → (d = c → n.sys.conns c = .none) →
        NetLog p (n.run env p ((toServer (.accept k d bs fin)).filterMap tcpEvent)) c (A' ++ if d = c then bs else []) L := by
      intro n A' h0 hn
      have h1 := h0.step env (.connect d) (by simp)
      have h2 := h1.step env (.arrive d bs) (fun _ he => by cases he; simp [Net.step, Sys.step, hn rfl, setConn])
      simp only [made, List.append_nil] at h1 h2
      have hA : A' ++ arrivals c (.connect d : NetEvent (HandlerId → τ)) ++
          arrivals c (.arrive d bs : NetEvent (HandlerId → τ)) = A' ++ if d = c then bs else [] := by
        simp only [arrivals, List.append_nil]
      rw [hA] at h2
      cases fin with
      | none => exact h2
      | some er =>
        have h3 := h2.step env (.hangup d er) (by simp)
        simp only [made, List.append_nil, arrivals] at h3
        exact h3
    by_cases e : c = d
    · subst e
      have hL := h.other (by rw [hf]; simp)
      have hA := h.waiting _ _ hf
      have hn : (behindNet env p devices w ls).sys.conns c = .none :=
        Classical.byContradiction fun hn => by rw [hconn.mp hn] at hf; cases hf
      have h0 : NetLog p (behindNet env p devices w ls) c [] L := by
        rw [hL]
        exact ⟨by simp, by simp [Log], fun _ => ⟨rfl, rfl⟩, fun x hx => (by rw [hn] at hx; cases hx),
          fun x hx => (by rw [hn] at hx; cases hx), fun x hx => (by rw [hn] at hx; cases hx),
          fun x hx => (by rw [hn] at hx; cases hx)⟩
      have h' := arr _ _ h0 (fun _ => hn)
      rw [List.nil_append, if_pos rfl, ← hA] at h'
      subst hA
      refine ⟨fun hn => ?_, fun b fin hn => ?_, fun _ => h', fun hn => ?_⟩ <;> dsimp only at hn <;> rw [upd_self] at hn
      · cases hn
      · cases hn
      · exact absurd rfl hn
    · have hfc : upd s.front d .accepted c = s.front c := upd_ne _ _ e
      by_cases hacc : s.front c = .accepted
      · have h' := arr _ _ (h.accepted hacc) (fun he => absurd he.symm e)
        rw [if_neg (fun h : d = c => e h.symm), List.append_nil] at h'
        refine ⟨fun hn => ?_, fun b fin hn => ?_, fun _ => h', fun hn => ?_⟩ <;> dsimp only at hn <;> rw [hfc, hacc] at hn
        · cases hn
        · cases hn
        · exact absurd rfl hn
      · refine ⟨fun hn => ?_, fun b fin hn => ?_, fun hn => ?_, fun hn => ?_⟩ <;> dsimp only at hn <;> rw [hfc] at hn
        · exact h.unknown hn
        · exact h.waiting b fin hn
        · exact absurd hn hacc
        · exact h.other hn
  | inner l w' st hl =>
    obtain ⟨hI, w1, hA, hr⟩ := whole_reach hb hK.whole
    have hC : Covered env p s.whole.fine.cfg := fun t f g k ht hk => tcp_covered hr t f g k ht hk
    obtain ⟨hI2, w2, hA2, hst⟩ := whole_step hb hC hI st hA
    cases l with
    | none =>
      have ha : A ++ arrivesAt c (Option.map MachineLabel.inner (.none : Option (TcpLabel (HandlerId → τ)))) = A :=
        List.append_nil A
      rw [ha]
      simp only [Option.map_none, Option.toList_none, List.flatMap_nil, List.filterMap_nil, madeBy, List.append_nil]
      exact h.front rfl rfl
    | some l =>
      dsimp only at hst
      have he := arrives_event (σ := HandlerId → τ) c l
      rw [Option.map_some, Option.toList_some, behindNet_snoc, he]
      have hev : (toServer (MachineLabel.inner l)).filterMap tcpEvent = (tcpEvent l).toList := by
        simp only [toServer, List.filterMap_cons, List.filterMap_nil]
        cases tcpEvent l <;> rfl
      have hev' : ((([MachineLabel.inner l] : List (MachineLabel (HandlerId → τ)))).flatMap toServer).filterMap tcpEvent =
          (tcpEvent l).toList := by
        rw [← hev, List.flatMap_cons, List.flatMap_nil, List.append_nil]
      rw [hev, hev']
      cases hne : tcpEvent l with
      | none =>
        simp only [Option.toList_none, List.append_nil, madeBy]
        exact h.front rfl rfl
      | some ne =>
        obtain ⟨g1, g2, g3⟩ := tcp_inner_event hr hst (fun c i e => hl c i (by rw [e])) ne hne
        have hac : ∀ bs, ne = .arrive c bs → s.front c = .accepted := fun bs e =>
          Classical.byContradiction fun hn => g2 c bs e (hK.conn c hn)
        by_cases hacc : s.front c = .accepted
        · have h' := (h.accepted hacc).step env ne (fun bs e => hconn.mpr hacc)
          simp only [Option.toList_some, madeBy, List.append_nil]
          refine ⟨fun hn => ?_, fun b fin hn => ?_, fun _ => h', fun hn => absurd hacc hn⟩ <;> dsimp only at hn <;>
            rw [hacc] at hn <;> cases hn
        · have : arrivals c ne = [] := by
            cases ne with
            | arrive d bs =>
              refine if_neg ?_
              rintro rfl
              exact hacc (hac bs rfl)
            | _ => rfl
          dsimp only
          have hm : made env p c (behindNet env p devices w ls) ne = [] :=
            made_none env p c _ ne (Classical.byContradiction fun hn => hacc (hconn.mp hn))
          simp only [Option.toList_some, madeBy, List.append_nil, hm]
          rw [this, List.append_nil]
          refine ⟨fun hn => h.unknown hn, fun b fin hn => h.waiting b fin hn, fun hn => absurd hn hacc, fun hn => h.other hn⟩

end

end Usbip
