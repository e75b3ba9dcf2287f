import Verif.Lemmas.Stage2
import Verif.Lemmas.Stock
/-!
# Executions to order: several hosts

Clients dial, send and are accepted, the server handles their requests one by one, and clients hang up, as told.  Used to show that the
hypotheses of theorems about several hosts can be met.
-/

namespace Usbip
open Spec Samples

/-- What happens: a client dials, sends some bytes and is accepted; the server handles what a client sent, and can write its answer
or not; a client ends its side; or the
application adds a device. -/
inductive Turn where
  | enter (c : Nat) (bs : Bytes)
  | iterate (c : Nat) (wr : WriteRes := .full)
  | hangup (c : Nat) (er : ErrKind)
  | add (d : Device)

def Turn.events {σ} : Turn → List (NetEvent σ)
  | .enter c bs => [.connect c, .arrive c bs]
  | .iterate c wr => [.iterate c wr]
  | .hangup c er => [.hangup c er]
  | .add d => [.addDevice d]

/-- Who enters. -/
def Turn.enters : Turn → Option Nat
  | .enter c _ => some c
  | _ => none

/-- The device that is added. -/
def Turn.gives : Turn → List Device
  | .add d => [d]
  | _ => []

/-- What arrives from client `c`. -/
def Turn.brings (c : Nat) : Turn → Bytes
  | .enter c' bs => if c' = c then bs else []
  | _ => []

section
variable {τ : Type} {code : Code τ} {env : Env (HandlerId → τ)} {p : Profile} {devices : List Device}
  {w : World (HandlerId → τ)}

def netTurns (env : Env (HandlerId → τ)) (p : Profile) (N : Net (HandlerId → τ)) (pl : List Turn) : Net (HandlerId → τ) :=
  N.run env p (pl.flatMap Turn.events)

def Turn.can (N : Net (HandlerId → τ)) : Turn → Bool
  | .enter c _ => (N.sys.conns c).isNone
  | .iterate _ _ => true
  | .hangup c _ => (N.sys.conns c).isSome && (N.ended c).isNone
  | .add _ => true

def turnable (env : Env (HandlerId → τ)) (p : Profile) : Net (HandlerId → τ) → List Turn → Bool
  | _, [] => true
  | N, x :: pl => x.can N && turnable env p (N.run env p x.events) pl

/-- The label of a step belongs to what happens. -/
def Turn.owns {σ} (x : Turn) (lb : MachineLabel σ) : Prop :=
  (∃ l, lb = .inner l ∧ (∀ c bs, l ≠ .arrive c bs) ∧ (∀ ev, tcpEvent l = some ev → x.events = [ev]) ∧
    ∀ t ev, l = .server (.start t ev) → x.events = [live ev]) ∨
  ∃ c bs, x = .enter c bs ∧ (lb = .dial 0 c ∨ lb = .early c bs ∨ lb = .accept 0 c bs none)

/-- An execution in which all this happens, one after the other; then nothing. -/
structure Turned {M : Machine code} (e : MachineExec code env p M) (devices : List Device) (w : World (HandlerId → τ))
    (pl : List Turn) (T : Nat → Nat) : Prop where
  zero : T 0 = 0
  mono : ∀ i, i < pl.length → T i ≤ T (i + 1)
  rest : ∀ i, i ≤ pl.length → Resting env p devices w (e.state (T i)).whole ∧
    restOf (e.state (T i)).whole.tcp = netTurns env p (restOf M.whole.tcp) (pl.take i)
  owns : ∀ n lb, e.label n = some lb → ∃ x ∈ pl, x.owns lb
  arrived : ∀ c, arrivedBy e.label c (T pl.length) = pl.flatMap (Turn.brings c)
  done : ∀ n, T pl.length ≤ n → e.state n = e.state (T pl.length)
  quiet : ∀ n, T pl.length ≤ n → e.label n = none
  front : ∀ n c, (e.state n).front c = .accepted → M.front c = .accepted ∨ ∃ i bs, pl[i]? = some (.enter c bs) ∧ T (i + 1) ≤ n
  queued : ∀ c bs, .enter c bs ∈ pl → ∃ n, (e.state n).calls 0 = some (.listening [c])
  calls : (e.state (T pl.length)).calls = M.calls
  given : ∀ i, i ≤ pl.length → ∀ G, devicesBy e.label G (T i) = G ++ (pl.take i).flatMap Turn.gives

theorem arrivedBy_after {l l' : Nat → Option (MachineLabel (HandlerId → τ))} {c K : Nat} (h : ∀ k, l (K + k) = l' k) (i : Nat) :
    arrivedBy l c (K + i) = arrivedBy l c K ++ arrivedBy l' c i := by
  induction i with
  | zero => exact (List.append_nil _).symm
  | succ i ih => rw [← Nat.add_assoc, arrivedBy, ih, h, arrivedBy, List.append_assoc]

theorem devicesBy_after {l l' : Nat → Option (MachineLabel (HandlerId → τ))} {K : Nat} (h : ∀ k, l (K + k) = l' k) (G : List Device) (i : Nat) :
    devicesBy l G (K + i) = devicesBy l' (devicesBy l G K) i := by
  induction i with
  | zero => rfl
  | succ i ih => rw [← Nat.add_assoc, devicesBy, ih, h, devicesBy]

theorem devicesBy_quiet {l : Nat → Option (MachineLabel (HandlerId → τ))} (G : List Device) (K : Nat) (h : ∀ k, k < K → addedIn (l k) = []) :
    devicesBy l G K = G := by
  induction K with
  | zero => rfl
  | succ K ih => rw [devicesBy, ih (fun k hk => h k (by omega)), h K (by omega), List.append_nil]

theorem addedIn_owned {x : Turn} (hx : x.gives = []) {ml : Option (MachineLabel (HandlerId → τ))} (h : ∀ lb, ml = some lb → x.owns lb) :
    addedIn ml = [] := by
  cases ml with
  | none => rfl
  | some lb =>
    rcases h lb rfl with ⟨l, rfl, _, h2, _⟩ | ⟨c, bs, _, rfl | rfl | rfl⟩
    · simp only [addedIn]
      cases he : tcpEvent l with
      | none => rfl
      | some ev =>
        have := h2 ev he
        cases ev with
        | addDevice d =>
          cases x with
          | add d => exact absurd hx (List.cons_ne_nil _ _)
          | _ => cases this
        | _ => rfl
    · rfl
    · rfl
    · rfl

/-- `MachineExec.after`, with the devices that are added. -/
theorem Spec.MachineExec.after_given {s0 : Machine code} {v : Whole code}
    {ls : List (TcpLabel (HandlerId → τ))} (h : Whole.Reach code env p s0.whole ls v)
    (hl : ∀ c i, .server (.outside (.connect c i)) ∉ ls) :
    ∀ e : MachineExec code env p { s0 with whole := v }, ∃ (N : Nat) (e' : MachineExec code env p s0),
      (∀ k, e'.state (N + k) = e.state k) ∧ (∀ k, e'.label (N + k) = e.label k) ∧
      (∀ k, k < N → ∀ lb, e'.label k = some lb → ∃ l ∈ ls, lb = .inner l) ∧
      (∀ k, k ≤ N → (e'.state k).front = s0.front ∧ (e'.state k).calls = s0.calls) ∧
      ∀ G, devicesBy e'.label G N = (ls.filterMap tcpEvent).foldl gave G := by
  induction h with
  | refl => exact fun e => ⟨0, e, fun k => by simp, fun k => by simp, fun k hk => by simp at hk,
      fun k hk => by obtain rfl : k = 0 := by omega
                     rw [e.init]; exact ⟨rfl, rfl⟩, fun G => rfl⟩
  | @tail ls s lb s' h st ih =>
    intro e
    obtain ⟨N, e', h1, h2, h3, h4, h5⟩ := ih (fun c i hm => hl c i (List.mem_append_left _ hm))
      (e.cons (Machine.Step.inner { s0 with whole := s } lb s' st (fun c i hm => hl c i (by simp [hm]))))
    have hN : e'.label N = lb.map MachineLabel.inner := h2 0
    refine ⟨N + 1, e', fun k => ?_, fun k => ?_, fun k hk l hl => ?_, fun k hk => ?_, fun G => ?_⟩
    · rw [Nat.add_assoc, Nat.add_comm 1 k, h1]; rfl
    · rw [Nat.add_assoc, Nat.add_comm 1 k, h2]; rfl
    · by_cases hlt : k < N
      · obtain ⟨l', q1, q2⟩ := h3 k hlt l hl
        exact ⟨l', List.mem_append_left _ q1, q2⟩
      · have : k = N := by omega
        subst this
        rw [hN] at hl
        cases lb with
        | none => cases hl
        | some lb => cases hl; exact ⟨lb, by simp, rfl⟩
    · by_cases hlt : k ≤ N
      · exact h4 k hlt
      · have : k = N + 1 := by omega
        subst this
        rw [h1]
        show (e.state 0).front = _ ∧ (e.state 0).calls = _
        rw [e.init]; exact ⟨rfl, rfl⟩
    · rw [devicesBy, h5, hN, List.filterMap_append, List.foldl_append]
      cases lb with
      | none => simp [addedIn]
      | some lb =>
        simp only [Option.map_some, Option.toList, List.filterMap_cons, List.filterMap_nil]
        cases he : tcpEvent lb with
        | none => simp [addedIn, he]
        | some ev => exact (gave_event he _).symm

/-- A device is added to a server at rest. -/
theorem calm_add {σ} {env : Env σ} {p : Profile} {devices : List Device} {w : World σ} {ls : List (TcpLabel σ)}
    {s : Tcp σ} (h : Tcp.Reach env p (Tcp.init devices w) ls s) (hq : AtRest s.cfg) (d : Device) :
    ∃ ls' s', Tcp.Reach env p s ls' s' ∧ AtRest s'.cfg ∧ restOf s' = (restOf s).step env p (.addDevice d) ∧
      ls'.filterMap tcpEvent = [.addDevice d] ∧
      ∀ u ev', TcpLabel.server (.start u ev') ∈ ls' → live ev' = .addDevice d := by
  have none : ∀ {s : Cfg σ}, AtRest s → ∀ t, s.flights t = none := by
    rintro s ⟨sh, conns, rfl⟩ t; rfl
  obtain ⟨ls', s', hr, hq', he, hns⟩ := calm_step env p s hq (fun c => (TInv.reach h).idle c (fun t f hf => by
    rw [none hq t] at hf; simp at hf)) (.addDevice d)
  have h1 : (Net.init devices w).run env p (ls.filterMap tcpEvent) = restOf s :=
    C79_quiet env p devices w ls s h (none hq)
  have h2 : (Net.init devices w).run env p ((ls ++ ls').filterMap tcpEvent) = restOf s' :=
    C79_quiet env p devices w _ s' (h.trans hr) (none hq')
  rw [Net.run] at h1
  rw [List.filterMap_append, Net.run, List.foldl_append, h1] at h2
  have he : ls'.filterMap tcpEvent = [.addDevice d] := by
    rcases he with he | ⟨_, he⟩
    · exact he
    · have := congrArg (fun N : Net σ => N.sys.shared.available.length) he
      simp [Net.step, Sys.step, Shared.addDevice] at this
  exact ⟨ls', s', hr, hq', by rw [← h2, he]; rfl, he, hns⟩

theorem turned (hb : Behaves code env) (hret : Returns code) : ∀ (pl : List Turn) (M : Machine code),
    Resting env p devices w M.whole → turnable env p (restOf M.whole.tcp) pl = true →
    M.calls 0 = some (.listening []) → (pl.filterMap Turn.enters).Nodup → (∀ c ∈ pl.filterMap Turn.enters, M.front c = .unknown) →
    ∃ (e : MachineExec code env p M) (T : Nat → Nat), Turned e devices w pl T
  | [], M, hM, _, _, _, _ => by
    refine ⟨.rest code env p M, fun _ => 0, rfl, fun i hi => (by cases hi), fun i hi => ?_, fun n lb h => (by cases h), fun c => rfl,
      fun n _ => rfl, fun n _ => rfl, fun n c h => .inl h, fun c bs h => (by cases h), rfl, fun i _ G => (by simp [devicesBy])⟩
    obtain rfl : i = 0 := by simpa using hi
    exact ⟨hM, rfl⟩
  | x :: pl, M, hM, hok, hcalls, hnd, hun => by
    rw [turnable, Bool.and_eq_true] at hok
    obtain ⟨hok1, hok2⟩ := hok
    -- prefixing an execution with the steps of `x`
    have pre : ∀ (M' : Machine code) (K : Nat) (e' : MachineExec code env p M') (T' : Nat → Nat)
        (e : MachineExec code env p M), restOf M'.whole.tcp = (restOf M.whole.tcp).run env p x.events →
        Turned e' devices w pl T' → (∀ k, e.state (K + k) = e'.state k) → (∀ k, e.label (K + k) = e'.label k) →
        (∀ k, k < K → ∀ lb, e.label k = some lb → x.owns lb) → (∀ c, arrivedBy e.label c K = x.brings c) →
        (∀ k, k < K → ∀ c, (e.state k).front c = .accepted → M.front c = .accepted) →
        (∀ c, M'.front c = .accepted → M.front c = .accepted ∨ ∃ bs, x = .enter c bs) → M'.calls = M.calls →
        (∀ c bs, x = .enter c bs → ∃ n, (e.state n).calls 0 = some (.listening [c])) →
        (∀ G, devicesBy e.label G K = G ++ x.gives) →
        ∃ (e : MachineExec code env p M) (T : Nat → Nat), Turned e devices w (x :: pl) T := by
      intro M' K e' T' e hN P hs hl hlab harr hfr hfr' hca hq hgv
      have e0 : e.state 0 = M := e.init
      have sh : ∀ n, K ≤ n → ∃ k, n = K + k := fun n h => Nat.exists_eq_add_of_le h
      refine ⟨e, fun i => match i with | 0 => 0 | i + 1 => K + T' i, rfl, fun i hi => ?_, fun i hi => ?_, fun n lb h => ?_, fun c => ?_,
        fun n hn => ?_, fun n hn => ?_, fun n c h => ?_, fun c bs h => ?_, ?_, fun i hi G => ?_⟩
      · cases i with
        | zero => exact Nat.zero_le _
        | succ i =>
          have := P.mono i (by simpa using hi)
          show K + T' i ≤ K + T' (i + 1); omega
      · cases i with
        | zero => dsimp only; rw [e0]; exact ⟨hM, rfl⟩
        | succ i =>
          dsimp only
          rw [hs]
          obtain ⟨g1, g2⟩ := P.rest i (by simpa using hi)
          refine ⟨g1, g2.trans ?_⟩
          rw [hN, List.take_succ_cons]
          unfold netTurns Net.run
          rw [List.flatMap_cons, List.foldl_append]
      · by_cases hn : n < K
        · exact ⟨x, List.mem_cons_self .., hlab n hn lb h⟩
        · obtain ⟨k, rfl⟩ := sh n (by omega)
          rw [hl] at h
          obtain ⟨y, h1, h2⟩ := P.owns k lb h
          exact ⟨y, List.mem_cons_of_mem _ h1, h2⟩
      · show arrivedBy e.label c (K + T' pl.length) = _
        rw [arrivedBy_after hl, harr, P.arrived, List.flatMap_cons]
      · change K + T' pl.length ≤ n at hn
        obtain ⟨k, rfl⟩ := sh n (by omega)
        show e.state (K + k) = e.state (K + T' pl.length)
        rw [hs, hs]; exact P.done k (by omega)
      · change K + T' pl.length ≤ n at hn
        obtain ⟨k, rfl⟩ := sh n (by omega)
        rw [hl]; exact P.quiet k (by omega)
      · by_cases hn : n < K
        · exact .inl (hfr n hn c h)
        · obtain ⟨k, rfl⟩ := sh n (by omega)
          rw [hs] at h
          rcases P.front k c h with h | ⟨i, bs, h1, h2⟩
          · rcases hfr' c h with h | ⟨bs, rfl⟩
            · exact .inl h
            · refine .inr ⟨0, bs, rfl, ?_⟩
              show K + T' 0 ≤ K + k
              rw [P.zero]; omega
          · refine .inr ⟨i + 1, bs, h1, ?_⟩
            show K + T' (i + 1) ≤ K + k
            omega
      · rcases List.mem_cons.mp h with h | h
        · exact hq c bs h.symm
        · obtain ⟨n, hn⟩ := P.queued c bs h
          exact ⟨K + n, by rw [hs]; exact hn⟩
      · show (e.state (K + T' pl.length)).calls = _
        rw [hs, P.calls, hca]
      · cases i with
        | zero => simp [devicesBy]
        | succ i =>
          show devicesBy e.label G (K + T' i) = _
          rw [devicesBy_after hl, P.given i (by simpa using hi), hgv, List.take_succ_cons, List.flatMap_cons, List.append_assoc]
    cases x with
    | enter c bs =>
      simp only [Turn.can, Option.isNone_iff_eq_none] at hok1
      have hc : M.whole.tcp.cfg.conns c = none := by
        cases h : M.whole.tcp.cfg.conns c with
        | none => rfl
        | some y => simp [restOf, h] at hok1
      have hf : M.front c = .unknown := hun c (List.mem_filterMap.mpr ⟨_, List.mem_cons_self .., rfl⟩)
      rw [List.filterMap_cons_some (by rfl)] at hnd
      obtain ⟨hnd1, hnd2⟩ := List.nodup_cons.mp hnd
      obtain ⟨ls, hr⟩ := hM.reach
      obtain ⟨fb, fe, _⟩ := (TInv.reach hr).fresh c hc
      change M.whole.buf c = [] at fb
      change M.whole.ended c = none at fe
      let W1 : Whole code := { M.whole with fine := { M.whole.fine with cfg := { M.whole.fine.cfg with
        conns := setConn M.whole.fine.cfg.conns c (Conn.new ⟨[], .unexpectedEof⟩) } } }
      let W : Whole code := { W1 with buf := upd M.whole.buf c bs, ended := upd M.whole.ended c none }
      have hW : W = { W1 with buf := upd W1.buf c (W1.buf c ++ bs) } := by
        simp only [W, Whole.mk.injEq, true_and, and_true]
        refine ⟨?_, ?_⟩
        · rw [show W1.buf = M.whole.buf from rfl, fb]; rfl
        · funext c'
          by_cases h : c' = c
          · subst h; simp [upd, fe, W1]
          · simp [upd, h, W1]
      have st1 := Tcp.Step.connect (env := env) (p := p) M.whole.tcp c hc
      have rest1 : AtRest W1.fine.cfg := by
        obtain ⟨sh, conns, h⟩ := hM.rest
        exact ⟨sh, setConn conns c (Conn.new ⟨[], .unexpectedEof⟩), by simp only [W1, h]; rfl⟩
      obtain ⟨hW1, hN1⟩ := hM.next (W' := W1) st1 rest1 hM.inside hM.app
      have st2 := Tcp.Step.arrive (env := env) (p := p) W1.tcp c bs (by simp [W1, Whole.tcp, setConn]) fe
      obtain ⟨hW2, hN2⟩ := hW1.next (W' := { W1 with buf := upd W1.buf c (W1.buf c ++ bs) }) st2 rest1 hM.inside hM.app
      rw [← hW] at hW2 hN2
      have hN : restOf W.tcp = (restOf M.whole.tcp).run env p (Turn.enter c bs).events := by
        rw [hN2, hN1]; rfl
      let M2 : Machine code := { M with calls := upd M.calls 0 (some (.listening [c])), front := upd M.front c (.waiting [] none) }
      let M3 : Machine code := { M2 with front := upd M2.front c (.waiting bs none) }
      let M' : Machine code := { whole := W, calls := M.calls, front := upd M.front c .accepted }
      have t1 : Machine.Step code env p M (some (.dial 0 c)) M2 := .dial _ 0 c [] hcalls hf
      have t2 : Machine.Step code env p M2 (some (.early c bs)) M3 := .early _ c [] _ (by simp [M2, upd])
      have t3 : Machine.Step code env p M3 (some (.accept 0 c bs none)) M' := by
        have := Machine.Step.accept (code := code) (env := env) (p := p) M3 0 c [] bs none rfl (by simp [M3, upd])
        have same : ∀ {l s s' t}, s = s' → Machine.Step code env p t l s → Machine.Step code env p t l s' := fun e h => e ▸ h
        refine same ?_ this
        simp only [M3, M2, M', W, W1, Machine.mk.injEq, true_and]
        refine ⟨?_, ?_⟩
        · funext k
          by_cases h : k = 0
          · subst h; simp [upd, hcalls]
          · simp [upd, h]
        · funext k
          by_cases h : k = c
          · subst h; simp [upd]
          · simp [upd, h]
      obtain ⟨e', T', P⟩ := turned hb hret pl M' hW2 (by rw [show M'.whole = W from rfl, hN]; exact hok2) hcalls hnd2 (fun c' h => by
        have : c' ≠ c := fun h' => hnd1 (h' ▸ h)
        show upd M.front c .accepted c' = _
        simp only [upd, this, if_false]
        exact hun c' (by rw [List.filterMap_cons_some (by rfl)]; exact List.mem_cons_of_mem _ h))
      let E := ((e'.cons t3).cons t2).cons t1
      have es : ∀ k, E.state (3 + k) = e'.state k := by
        intro k
        obtain ⟨m, hm⟩ : ∃ m, m = 3 + k := ⟨_, rfl⟩
        rw [← hm]
        obtain rfl : m = k + 3 := by omega
        rfl
      have el : ∀ k, E.label (3 + k) = e'.label k := by
        intro k
        obtain ⟨m, hm⟩ : ∃ m, m = 3 + k := ⟨_, rfl⟩
        rw [← hm]
        obtain rfl : m = k + 3 := by omega
        rfl
      refine pre M' 3 e' T' E hN P es el (fun k hk lb hl => .inr ⟨c, bs, rfl, ?_⟩) (fun c' => ?_) (fun k hk c' h => ?_) (fun c' h => ?_) rfl
        (fun c' bs' h => ?_)
        (fun G => (devicesBy_quiet G 3 (fun k hk => match k, hk with | 0, _ => rfl | 1, _ => rfl | 2, _ => rfl)).trans (List.append_nil G).symm)
      · match k, hk with
        | 0, _ => cases hl; exact .inl rfl
        | 1, _ => cases hl; exact .inr (.inl rfl)
        | 2, _ => cases hl; exact .inr (.inr rfl)
      · show (([] ++ arrivesAt c' (some (.dial 0 c))) ++ arrivesAt c' (some (.early c bs))) ++ arrivesAt c' (some (.accept 0 c bs none)) = _
        simp [arrivesAt, Turn.brings]
      · match k, hk with
        | 0, _ => exact h
        | 1, _ =>
          by_cases hc' : c' = c
          · subst hc'
            have h : M2.front c' = .accepted := h
            simp [M2, upd] at h
          · have h : M2.front c' = .accepted := h
            simpa [M2, upd, hc'] using h
        | 2, _ =>
          by_cases hc' : c' = c
          · subst hc'
            have h : M3.front c' = .accepted := h
            simp [M3, upd] at h
          · have h : M3.front c' = .accepted := h
            simpa [M3, M2, upd, hc'] using h
      · by_cases hc' : c' = c
        · subst hc'; exact .inr ⟨bs, rfl⟩
        · left
          simpa [M', upd, hc'] using h
      · cases h
        exact ⟨1, rfl⟩
    | hangup c er =>
      simp only [Turn.can, Bool.and_eq_true, Option.isSome_iff_ne_none, Option.isNone_iff_eq_none] at hok1
      have hc : M.whole.tcp.cfg.conns c ≠ none := fun hn => hok1.1 (by simp [restOf, hn])
      have he : M.whole.tcp.ended c = none := hok1.2
      have st := Tcp.Step.hangup (env := env) (p := p) M.whole.tcp c er hc he
      let W : Whole code := { M.whole with ended := upd M.whole.ended c (some er) }
      obtain ⟨hW, hN⟩ := hM.next (W' := W) st hM.rest hM.inside hM.app
      have st' : Machine.Step code env p M (some (.inner (.hangup c er))) { M with whole := W } :=
        .inner M (some (.hangup c er)) W (.socket M.whole _ _ st (fun l h => by cases h) (fun l t h => by cases h)) (fun c i h => by cases h)
      obtain ⟨e', T', P⟩ := turned hb hret pl { M with whole := W } hW (by rw [hN]; exact hok2) hcalls hnd hun
      refine pre { M with whole := W } 1 e' T' (e'.cons st') hN P (fun k => by rw [Nat.add_comm]; rfl) (fun k => by rw [Nat.add_comm]; rfl)
        (fun k hk lb hl => ?_) (fun c' => rfl) (fun k hk c' h => ?_) (fun c' h => .inl h) rfl (fun c' bs' h => by cases h)
        (fun G => (devicesBy_quiet G 1 (fun k hk => match k, hk with | 0, _ => rfl)).trans (List.append_nil G).symm)
      · obtain rfl : k = 0 := by omega
        cases hl
        exact .inl ⟨_, rfl, fun _ _ h => (by cases h), fun ev h => (by cases h; rfl), fun t ev h => (by cases h)⟩
      · obtain rfl : k = 0 := by omega
        exact h
    | iterate c wr =>
      obtain ⟨ls, hr⟩ := hM.reach
      obtain ⟨l, s', r, q, hN, v, w'⟩ := calm_next_only hr hM.rest (.iterate c wr)
      obtain ⟨W, bW, hWt, hin, hap⟩ := lift_from hb hret hr hM.inside hM.app r (fun f cr hf => by cases v _ hf _ rfl)
      have hW : Resting env p devices w W := ⟨⟨_, by rw [hWt]; exact hr.trans r⟩, by
        have := congrArg Tcp.cfg hWt
        rw [show W.fine.cfg = s'.cfg from this]; exact q, hin, hap⟩
      have hN' : restOf W.tcp = (restOf M.whole.tcp).step env p (.iterate c wr) := by rw [hWt]; exact hN
      obtain ⟨e', T', P⟩ := turned hb hret pl { M with whole := W } hW (by rw [hN']; exact hok2) hcalls hnd hun
      obtain ⟨K, E, p1, p2, p3, p4⟩ := MachineExec.after (s0 := M) bW (fun c i h => by cases v _ h _ rfl) e'
      have noarr : ∀ k, k < K → ∀ c', arrivesAt c' (E.label k) = [] := by
        intro k hk c'
        cases hl : E.label k with
        | none => rfl
        | some lb =>
          obtain ⟨l', m1, rfl⟩ := p3 k hk lb hl
          cases l' with
          | arrive c'' bs => cases v _ m1 _ rfl
          | _ => rfl
      have arr : ∀ c' k, k ≤ K → arrivedBy E.label c' k = [] := by
        intro c' k
        induction k with
        | zero => exact fun _ => rfl
        | succ k ih => intro hk; rw [arrivedBy, ih (by omega), noarr k (by omega)]; rfl
      have own : ∀ k, k < K → ∀ lb, E.label k = some lb → (Turn.iterate c wr).owns lb := by
        intro k hk lb hl
        obtain ⟨l', m1, rfl⟩ := p3 k hk lb hl
        exact .inl ⟨l', rfl, fun _ _ h => (by subst h; cases v _ m1 _ rfl), fun ev h => (by rw [v l' m1 ev h]; rfl),
          fun t ev h => (by rw [w' t ev (by rw [← h]; exact m1)]; rfl)⟩
      exact pre { M with whole := W } K e' T' E hN' P p1 p2 own (fun c' => arr c' K (Nat.le_refl _))
        (fun k hk c' h => by rw [(p4 k (by omega)).1] at h; exact h) (fun c' h => .inl h) rfl (fun c' bs' h => by cases h)
        (fun G => by rw [devicesBy_quiet G K (fun k hk => addedIn_owned (x := .iterate c wr) rfl (own k hk))]; exact (List.append_nil G).symm)
    | add d =>
      obtain ⟨ls, hr⟩ := hM.reach
      obtain ⟨l, s', r, q, hN, only, w'⟩ := calm_add hr hM.rest d
      have v : ∀ lb ∈ l, ∀ ev', tcpEvent lb = some ev' → ev' = .addDevice d := by
        intro lb hm ev' he
        have : ev' ∈ l.filterMap tcpEvent := List.mem_filterMap.mpr ⟨_, hm, he⟩
        rw [only] at this
        exact List.mem_singleton.mp this
      obtain ⟨W, bW, hWt, hin, hap⟩ := lift_from hb hret hr hM.inside hM.app r (fun f cr hf => by cases v _ hf _ rfl)
      have hW : Resting env p devices w W := ⟨⟨_, by rw [hWt]; exact hr.trans r⟩, by
        have := congrArg Tcp.cfg hWt
        rw [show W.fine.cfg = s'.cfg from this]; exact q, hin, hap⟩
      have hN' : restOf W.tcp = (restOf M.whole.tcp).step env p (.addDevice d) := by rw [hWt]; exact hN
      obtain ⟨e', T', P⟩ := turned hb hret pl { M with whole := W } hW (by rw [hN']; exact hok2) hcalls hnd hun
      obtain ⟨K, E, p1, p2, p3, p4, p5⟩ := MachineExec.after_given (s0 := M) bW (fun c i h => by cases v _ h _ rfl) e'
      have noarr : ∀ k, k < K → ∀ c', arrivesAt c' (E.label k) = [] := by
        intro k hk c'
        cases hl : E.label k with
        | none => rfl
        | some lb =>
          obtain ⟨l', m1, rfl⟩ := p3 k hk lb hl
          cases l' with
          | arrive c'' bs => cases v _ m1 _ rfl
          | _ => rfl
      have arr : ∀ c' k, k ≤ K → arrivedBy E.label c' k = [] := by
        intro c' k
        induction k with
        | zero => exact fun _ => rfl
        | succ k ih => intro hk; rw [arrivedBy, ih (by omega), noarr k (by omega)]; rfl
      refine pre { M with whole := W } K e' T' E hN' P p1 p2 (fun k hk lb hl => ?_) (fun c' => arr c' K (Nat.le_refl _))
        (fun k hk c' h => by rw [(p4 k (by omega)).1] at h; exact h) (fun c' h => .inl h) rfl (fun c' bs' h => by cases h)
        (fun G => by rw [p5, only]; rfl)
      obtain ⟨l', m1, rfl⟩ := p3 k hk lb hl
      exact .inl ⟨l', rfl, fun _ _ h => (by subst h; cases v _ m1 _ rfl), fun ev h => (by rw [v l' m1 ev h]; rfl),
        fun t ev h => (by rw [w' t ev (by rw [← h]; exact m1)]; rfl)⟩

end

end Usbip
