import Verif.Lemmas.Stage2
/-! A process with one device, an application that uses its handler object once, and a host that polls. -/

namespace Usbip
open Spec Samples

namespace Samples

/-- Handler code that does its work in one step. -/
def oneShot {β : Type} (obj : Endpoint → SetupPacket → β → HRes × β) : Code β where
  Local := HCall ⊕ HRes
  start c := .inl c
  step l v := match l with
    | .inl (.iface _ _ ep _ st _) => (.inr (obj ep st v).1, (obj ep st v).2)
    | .inl (.dev ..) => (.inr (.ok []), v)
    | .inr r => (.inr r, v)
  result l := match l with
    | .inl _ => none
    | .inr r => some r

def oneEnv {β : Type} (obj : Endpoint → SetupPacket → β → HRes × β) : Env (HandlerId → β) where
  iface h _ ep _ st _ u := ((obj ep st (u (.iface h))).1, upd u (.iface h) (obj ep st (u (.iface h))).2)
  dev _ _ _ _ u := (.ok [], u)

theorem upd_same {α β} [DecidableEq α] (f : α → β) (a : α) : upd f a (f a) = f := by
  funext x
  by_cases h : x = a
  · subst h; exact upd_self _ _ _
  · exact upd_ne _ _ h

theorem oneShot_behaves {β : Type} (obj : Endpoint → SetupPacket → β → HRes × β) : Behaves (oneShot obj) (oneEnv obj) := by
  intro c u l v r h hr
  have key : ∀ {l0 v0 l v}, Goes (oneShot obj) l0 v0 l v → l0 = .inl c →
      (l = .inl c ∧ v = v0) ∨ (l, v) = (oneShot obj).step (.inl c) v0 := by
    intro l0 v0 l v h h0
    induction h with
    | refl => exact .inl ⟨h0, rfl⟩
    | @tail l' v' h hr ih =>
      rcases ih with ⟨h1, h2⟩ | h1
      · rw [h1, h2]; exact .inr rfl
      · cases c with
        | iface => cases h1; cases hr
        | dev => cases h1; cases hr
  rcases key h rfl with ⟨h1, _⟩ | h1
  · rw [h1] at hr; cases hr
  · cases c with
    | iface h' i ep len st data => cases h1; cases hr; rfl
    | dev h' len st data =>
      cases h1; cases hr
      exact congrArg (Prod.mk _) (upd_same u (.dev h')).symm

theorem oneShot_returns {β : Type} (obj : Endpoint → SetupPacket → β → HRes × β) : Returns (oneShot obj) := by
  intro c v
  cases c with
  | iface h i ep len st data => exact ⟨_, _, .tail (.refl _ _) rfl, _, rfl⟩
  | dev h len st data => exact ⟨_, _, .tail (.refl _ _) rfl, _, rfl⟩

theorem oneShot_serves {β : Type} (obj : Endpoint → SetupPacket → β → HRes × β) (h : Nat) :
    Serves (oneShot obj) (oneEnv obj) h id obj := by
  refine ⟨fun i ep len st data u => ⟨rfl, upd_self _ _ _⟩, fun call u hne => ?_⟩
  cases call with
  | iface h' i ep len st data => exact upd_ne _ _ (fun h => hne h.symm)
  | dev h' len st data => rfl

def Driver.ask (d : Driver) (seq : UInt32) (u : Urb) : Driver :=
  { d with pending := d.pending ++ [(seq, u)], issued := d.issued ++ [(seq, u)], said := d.said ++ [u.cmd d.devid seq] }

/-- Many requests. -/
def Driver.asks (d : Driver) (qs : List (UInt32 × Urb)) : Driver := qs.foldl (fun d q => Driver.ask d q.1 q.2) d

/-- Import, then something else, then some polls. -/
def polls {β : Type} (x : Play β) (qs : List (UInt32 × Urb)) : List (Play β) :=
  [.iterate, x, .arrive (qs.flatMap (fun q => wireCmd (q.2.cmd 65538 q.1)))] ++ qs.map (fun _ => .iterate)

/-- A bus id as it is sent. -/
def padded (b : Bytes) : Bytes := b ++ List.replicate (32 - b.length) 0

section
variable {β : Type} (env : Env (HandlerId → β)) (w : World (HandlerId → β)) (x : Play β) (dv : Device) (qs : List (UInt32 × Urb))

/-- The server, on the way. -/
def pollNet (i : Nat) : Net (HandlerId → β) :=
  netAfter env dev (net0 [dv] w (wireCmd (.reqImport 0 (padded dv.busId)))) ((polls x qs).take i)

def pollOut (i : Nat) : Bytes := outOf ((pollNet env w x dv qs i).sys.conns 0)

/-- The host, on the way. -/
def poller1 : Driver := (Driver.start (padded dv.busId) 65538).hear (pollOut env w x dv qs 1)
def poller2 : Driver := Driver.asks (poller1 env w x dv qs) qs
def poller3 : Driver := (poller2 env w x dv qs).hear ((pollOut env w x dv qs (3 + qs.length)).drop 320)
def poller (i : Nat) : Driver :=
  if i ≤ 1 then .start (padded dv.busId) 65538 else if i = 2 then poller1 env w x dv qs
  else if i ≤ 3 + qs.length then poller2 env w x dv qs else poller3 env w x dv qs

/-- What is left to compute. -/
structure Computed : Prop where
  wf : ∀ q ∈ qs, WellFormed true (q.2.cmd 65538 q.1)
  fresh : (qs.map (·.1)).Nodup
  named : dv.busId = cstr (padded dv.busId)
  short : (padded dv.busId).length = 32
  host : (poller1 env w x dv qs).phase = .attached ∧ (poller1 env w x dv qs).pending = [] ∧
    (poller1 env w x dv qs).unlinks = [] ∧ (poller1 env w x dv qs).devid = 65538 ∧
    (poller1 env w x dv qs).said = [.reqImport 0 (padded dv.busId)]
  out : (pollOut env w x dv qs 1).length = 320 ∧
    ∀ i < 2 + qs.length, pollOut env w x dv qs (i + 1) <+: pollOut env w x dv qs (i + 2)
  playable : playable env dev (net0 [dv] w (wireCmd (.reqImport 0 (padded dv.busId)))) (polls x qs) = true
  waits : ((pollNet env w x dv qs (3 + qs.length)).sys.conns 0).map (fun x => x.input.bytes) = some []
  open_ : (pollNet env w x dv qs (3 + qs.length)).ended 0 = none
  quiet : x.bytes = []

end

end Samples

theorem asks_ghosts (qs : List (UInt32 × Urb)) : ∀ x : Driver, (Driver.asks x qs).phase = x.phase ∧
    (Driver.asks x qs).devid = x.devid ∧ (Driver.asks x qs).heard = x.heard ∧
    (Driver.asks x qs).said = x.said ++ qs.map (fun q => q.2.cmd x.devid q.1) := by
  induction qs with
  | nil => exact fun x => ⟨rfl, rfl, rfl, (List.append_nil _).symm⟩
  | cons q qs ih =>
    intro x
    obtain ⟨h1, h2, h3, h4⟩ := ih (Driver.ask x q.1 q.2)
    refine ⟨h1, h2, h3, h4.trans ?_⟩
    simp only [Driver.ask, List.map_cons, List.append_assoc, List.singleton_append]

theorem asks_moves (qs : List (UInt32 × Urb)) : ∀ x : Driver, (∀ q ∈ qs, WellFormed true (q.2.cmd 65538 q.1)) → x.phase = .attached →
    x.unlinks = [] → x.devid = 65538 → (qs.map (·.1)).Nodup → (∀ q ∈ qs, ∀ e ∈ x.pending, e.1 ≠ q.1) → ∀ y : Driver, y.Moves x →
    y.Moves (Driver.asks x qs) := by
  induction qs with
  | nil => exact fun x _ _ _ _ _ _ y h => h
  | cons q qs ih =>
    intro x hw k1 k2 k3 k4 k5 y h
    obtain ⟨k4, k4'⟩ := List.nodup_cons.mp k4
    refine ih (Driver.ask x q.1 q.2) (fun q' h' => hw q' (List.mem_cons_of_mem _ h')) k1 k2 k3 k4' ?_ y
      (.submit h q.1 q.2 k1 ⟨k5 q (List.mem_cons_self ..), fun e he => ?_⟩ (k3 ▸ hw q (List.mem_cons_self ..)))
    · intro s hs e he
      rcases List.mem_append.mp he with he | he
      · exact k5 s (List.mem_cons_of_mem _ hs) e he
      · rw [List.mem_singleton.mp he]
        intro hc
        exact k4 (List.mem_map.mpr ⟨s, hs, (show q.1 = s.1 from hc).symm⟩)
    · rw [k2] at he; cases he

theorem polls_bytes {β : Type} {x : Play β} (hx : x.bytes = []) (qs : List (UInt32 × Urb)) :
    (polls x qs).flatMap Play.bytes = qs.flatMap (fun q => wireCmd (q.2.cmd 65538 q.1)) := by
  have h0 : ∀ l : List (UInt32 × Urb), (l.map (fun _ => Play.iterate (τ := β))).flatMap Play.bytes = [] := by
    intro l
    induction l with
    | nil => rfl
    | cons _ l ih => exact ih
  unfold polls
  rw [List.flatMap_append, h0]
  simp only [List.flatMap_cons, hx, List.flatMap_nil, List.append_nil, List.nil_append]
  exact List.nil_append _

section
variable {β : Type} {code : Code β} {env : Env (HandlerId → β)} {w : World (HandlerId → β)} {x : Play β} {dv : Device} {qs : List (UInt32 × Urb)}

theorem polls_length : (polls x qs).length = 3 + qs.length := by
  simp only [polls, List.length_append, List.length_map, List.length_cons, List.length_nil]

theorem poller_one {i : Nat} (h : i ≤ 1) : poller env w x dv qs i = .start (padded dv.busId) 65538 := if_pos h
theorem poller_two : poller env w x dv qs 2 = poller1 env w x dv qs := (if_neg (by omega)).trans (if_pos rfl)
theorem poller_three {i : Nat} (h1 : 3 ≤ i) (h2 : i ≤ 3 + qs.length) : poller env w x dv qs i = poller2 env w x dv qs :=
  (if_neg (by omega)).trans ((if_neg (by omega)).trans (if_pos h2))
theorem poller_end {i : Nat} (h : 4 + qs.length ≤ i) : poller env w x dv qs i = poller3 env w x dv qs :=
  (if_neg (by omega)).trans ((if_neg (by omega)).trans (if_neg (by omega)))

/-- The host's part in this. -/
theorem pollsFit (h : Computed env w x dv qs) :
    HostFits env dev [dv] w (padded dv.busId) 65538 (polls x qs) (poller env w x dv qs) := by
  obtain ⟨wf, fresh, _, width, ⟨a1, a2, a3, a4, a5⟩, ⟨b1, b2⟩, h3, h4, h5, hx⟩ := h
  obtain ⟨_, _, g3, g4⟩ := asks_ghosts qs (poller1 env w x dv qs)
  have heard1 : (poller1 env w x dv qs).heard = pollOut env w x dv qs 1 := by
    rw [poller1, (hear_ghosts _ _).2.1, Driver.start, List.nil_append]
  have heard2 : (poller2 env w x dv qs).heard = pollOut env w x dv qs 1 := g3.trans heard1
  have out : ∀ i, i < 3 + qs.length → pollOut env w x dv qs 1 <+: pollOut env w x dv qs (i + 1) := by
    intro i
    induction i with
    | zero => exact fun _ => List.prefix_refl _
    | succ i ih => exact fun h => (ih (by omega)).trans (b2 i (by omega))
  have heard3 : (poller3 env w x dv qs).heard = pollOut env w x dv qs (3 + qs.length) := by
    rw [poller3, (hear_ghosts _ _).2.1, heard2]
    have := out (2 + qs.length) (by omega)
    rw [show 2 + qs.length + 1 = 3 + qs.length by omega] at this
    obtain ⟨t, ht⟩ := this
    rw [← ht, List.drop_left' b1]
  have moves1 : (poller1 env w x dv qs).Moves (poller2 env w x dv qs) :=
    asks_moves qs _ wf a1 a3 a4 fresh (fun seq _ e he => by rw [a2] at he; cases he) _ (.refl _)
  have said3 : (poller3 env w x dv qs).said = (poller2 env w x dv qs).said := by rw [poller3, (hear_ghosts _ _).1]
  have wires0 : (Driver.start (padded dv.busId) 65538).said.flatMap wireCmd = wireCmd (.reqImport 0 (padded dv.busId)) := by
    simp only [Driver.start, List.flatMap_cons, List.flatMap_nil, List.append_nil]
  have wires1 : (poller1 env w x dv qs).said.flatMap wireCmd = wireCmd (.reqImport 0 (padded dv.busId)) := by
    rw [a5]; simp only [List.flatMap_cons, List.flatMap_nil, List.append_nil]
  have wires2 : (poller2 env w x dv qs).said.flatMap wireCmd =
      wireCmd (.reqImport 0 (padded dv.busId)) ++ (polls x qs).flatMap Play.bytes := by
    unfold poller2
    rw [g4, List.flatMap_append, wires1, polls_bytes hx, a4, List.flatMap_map]
  have len : (polls x qs).length = 3 + qs.length := polls_length
  have net7 : pollNet env w x dv qs (3 + qs.length) =
      netAfter env dev (net0 [dv] w (wireCmd (.reqImport 0 (padded dv.busId)))) (polls x qs) := by
    rw [pollNet, List.take_of_length_le (Nat.le_of_eq len)]
  rw [net7] at h4 h5
  refine ⟨width, rfl, fun i hi => ?_, fun i hi => ?_, fun i hi => ?_, ?_, ?_, h3, h4, h5⟩
  · rw [len] at hi
    match i, hi with
    | 0, _ => rw [poller_one (by omega), poller_one (by omega)]; exact .refl _
    | 1, _ => rw [poller_one (by omega), poller_two]; exact .hear (.refl _) _
    | 2, _ => rw [poller_two, poller_three (by omega) (by omega)]; exact moves1
    | i + 3, hi =>
      by_cases h : i = qs.length
      · subst h; rw [poller_three (by omega) (by omega), poller_end (by omega)]; exact .hear (.refl _) _
      · rw [poller_three (by omega) (by omega), poller_three (by omega) (by omega)]; exact .refl _
  · rw [len] at hi
    show _ <+: pollOut env w x dv qs i
    match i, hi with
    | 0, _ => rw [poller_one (by omega)]; exact List.nil_prefix
    | 1, _ => rw [poller_two, heard1]; exact List.prefix_refl _
    | i + 2, hi =>
      by_cases h : i = 1 + qs.length
      · subst h
        rw [poller_end (by omega), heard3, show 1 + qs.length + 2 = 3 + qs.length by omega]
        exact List.prefix_refl _
      · rw [poller_three (by omega) (by omega), heard2]; exact out (i + 1) (by omega)
  · rw [len] at hi
    match i, hi with
    | 0, _ => rw [poller_one (by omega), wires0]; exact (List.append_nil (wireCmd (.reqImport 0 (padded dv.busId)))).symm ▸ List.prefix_refl _
    | 1, _ => rw [poller_one (by omega), wires0]; exact (List.append_nil (wireCmd (.reqImport 0 (padded dv.busId)))).symm ▸ List.prefix_refl _
    | 2, _ =>
      have : ((polls x qs).take 2).flatMap Play.bytes = [] := by
        show Play.bytes .iterate ++ (x.bytes ++ []) = []
        rw [hx]; rfl
      rw [poller_two, wires1, this, List.append_nil]
      exact List.prefix_refl _
    | i + 3, hi =>
      have hp : wireCmd (.reqImport 0 (padded dv.busId)) ++ ((polls x qs).take (i + 3)).flatMap Play.bytes <+:
          wireCmd (.reqImport 0 (padded dv.busId)) ++ (polls x qs).flatMap Play.bytes := by
        refine (List.prefix_append_right_inj _).mpr ?_
        obtain ⟨t, ht⟩ := List.take_prefix (i + 3) (polls x qs)
        conv => rhs; rw [← ht, List.flatMap_append]
        exact List.prefix_append _ _
      by_cases h : i = 1 + qs.length
      · subst h; rw [poller_end (by omega), said3, wires2]; exact hp
      · rw [poller_three (by omega) (by omega), wires2]; exact hp
  · rw [len, poller_end (by omega), said3, wires2]
  · rw [len, poller_end (by omega), heard3, pollOut, net7]

/-- All of it happens. -/
structure Asked (e : MachineExec code env dev (Machine.init code [dv] w)) (d : Nat → Driver) (x : Play β) (qs : List (UInt32 × Urb))
    (n0 n1 n2 : Nat) : Prop where
  alongside : Alongside e 0 (padded dv.busId) 65538 d
  sole : Sole e [dv] dv 0 (padded dv.busId)
  given : ∀ n, devicesBy e.label [dv] n = [dv]
  fair : e.Fair
  noRemovals : ∀ n t f i m k, (e.state n).whole.fine.cfg.flights t = some f → f.ev = .removeDevice i → f.code ≠ .lock .used m k
  delivers : Delivers e 0 d
  lone : Lone e 0
  adds : ∀ n lb d, e.label n = some (.inner lb) → tcpEvent lb ≠ some (.addDevice d)
  starts : ∀ n t i, e.label n ≠ some (.inner (.server (.start t (.removeDevice i))))
  kept : ∀ n lb i, e.label n = some (.inner lb) → tcpEvent lb ≠ some (.removeDevice i)
  queued : (e.state 2).calls 0 = some (.listening [0]) ∧ ∀ m k, e.label m ≠ some (.dropServe k)
  le : n0 ≤ n1
  at0 : d n0 = poller1 env w x dv qs
  at1 : d n1 = poller2 env w x dv qs
  at2 : ∀ n, n2 ≤ n → d n = poller3 env w x dv qs
  always : ∀ n, d n = .start (padded dv.busId) 65538 ∨ d n = poller1 env w x dv qs ∨ d n = poller2 env w x dv qs ∨ d n = poller3 env w x dv qs

theorem asked (hb : Behaves code env) (hret : Returns code) (hc : Computed env w x dv qs) :
    ∃ (e : MachineExec code env dev (Machine.init code [dv] w)) (d : Nat → Driver) (T : Nat → Nat),
      Staged e d T (padded dv.busId) 65538 (polls x qs) (poller env w x dv qs) ∧ Asked e d x qs (T 2) (T 3) (T (3 + qs.length) + 1) := by
  obtain ⟨e, d, T, h⟩ := staged hb hret (pollsFit hc)
  have len : (polls x qs).length = 3 + qs.length := polls_length
  have l1 := h.lt 1 (by rw [len]; omega)
  have l2 := h.lt 2 (by rw [len]; omega)
  have adds : ∀ n lb d, e.label n = some (.inner lb) → tcpEvent lb ≠ some (.addDevice d) := fun n lb d' hlb hev => by
    obtain ⟨i, x, hx, ho, _⟩ := h.owns n lb hlb
    have := ho.1 _ hev
    cases x <;> cases this
  have given : ∀ n, devicesBy e.label [dv] n = [dv] := devicesBy_fixed adds
  refine ⟨e, d, T, h, h.alongside, ⟨hc.named, ?_, ?_⟩, given,
    h.fair, h.noRemovals, h.delivers, h.lone, adds, ?_, ?_, h.queued, Nat.le_of_lt l2, ?_, ?_, ?_, ?_⟩
  · intro n x hx _; rw [given n] at hx; exact List.mem_singleton.mp hx
  · intro n; rw [given n]; unfold Single; simp
  · intro n t i hlb
    obtain ⟨j, x, hx, ho, _⟩ := h.owns n _ hlb
    have := ho.2 _ _ rfl
    cases x <;> cases this
  · intro n lb d' hlb hev
    obtain ⟨i, x, hx, ho, _⟩ := h.owns n lb hlb
    have := ho.1 _ hev
    cases x <;> cases this
  · rw [h.host 1 (by rw [len]; omega) (T 2) l1 (fun _ => Nat.le_refl _), poller_two]
  · rw [h.host 2 (by rw [len]; omega) (T 3) l2 (fun _ => Nat.le_refl _), poller_three (by omega) (by omega)]
  · intro n hn
    rw [h.host (3 + qs.length) (by rw [len]; omega) n (by omega) (fun hc => by rw [len] at hc; omega), poller_end (by omega)]
  · intro n
    obtain ⟨i, hi, hd⟩ := h.hosts n
    rw [len] at hi
    rw [hd]
    by_cases k1 : i ≤ 1
    · exact .inl (poller_one k1)
    by_cases k2 : i = 2
    · subst k2; exact .inr (.inl poller_two)
    by_cases k3 : i ≤ 3 + qs.length
    · exact .inr (.inr (.inl (poller_three (by omega) k3)))
    · exact .inr (.inr (.inr (poller_end (by omega))))

theorem polls_rest {i : Nat} : (polls x qs)[i + 3]? = (qs[i]?).map (fun _ => .iterate) := by
  have : (polls x qs)[i + 3]? = (qs.map (fun _ => Play.iterate (τ := β)))[i]? := rfl
  rw [this, List.getElem?_map]

end

section
variable {β : Type} {obj : Endpoint → SetupPacket → β → HRes × β} {b0 v : β} {dv : Device} {qs : List (UInt32 × Urb)}

def Samples.oneWorld (b0 : β) : World (HandlerId → β) := ⟨fun _ => b0, fun _ => false, fun _ => false⟩

/-- Polls, after the application has used the object once. -/
structure Polled {α : Type} (e : MachineExec (oneShot obj) (oneEnv obj) dev (Machine.init (oneShot obj) [dv] (oneWorld b0)))
    (d : Nat → Driver) (v : β) (qs : List (UInt32 × Urb)) (act : α → β → β) (as : List α) (acts : Nat → List α)
    (n0 n1 n2 : Nat) : Prop extends Asked e d (.use (.iface 0) v) qs n0 n1 n2 where
  uses : Uses e (.iface 0) id act acts
  acted : actsBy acts n0 = as
  once : ∀ n, acts n = [] ∨ acts n = as

theorem polled {α : Type} (hc : Computed (oneEnv obj) (oneWorld b0) (.use (.iface 0) v) dv qs)
    (ho : (pollNet (oneEnv obj) (oneWorld b0) (.use (.iface 0) v) dv qs 1).sys.shared.world.user (.iface 0) = b0)
    (act : α → β → β) (as : List α) (hv : v = as.foldl (fun b x => act x b) b0) :
    ∃ (e : MachineExec (oneShot obj) (oneEnv obj) dev (Machine.init (oneShot obj) [dv] (oneWorld b0))) (d : Nat → Driver)
      (acts : Nat → List α) (n0 n1 n2 : Nat), Polled e d v qs act as acts n0 n1 n2 := by
  obtain ⟨e, d, T, h, hA⟩ := asked (oneShot_behaves obj) (oneShot_returns obj) hc
  have hu : (polls (Play.use (.iface 0) v) qs)[1]? = some (.use (.iface 0) v) := rfl
  obtain ⟨u1, u2⟩ := h.uses (α := α) (view := id) (act := act) (as := as) (oneShot_behaves obj) hu
    (fun i o' v' hi => by
      match i, hi with
      | 1, _ => rfl
      | 0, hi => cases hi
      | 2, hi => cases hi
      | i + 3, hi => rw [polls_rest] at hi; cases hs : qs[i]? <;> rw [hs] at hi <;> cases hi)
    (by
      show v = as.foldl _ ((pollNet (oneEnv obj) (oneWorld b0) (.use (.iface 0) v) dv qs 1).sys.shared.world.user (.iface 0))
      rw [ho]; exact hv)
  obtain ⟨t2, _⟩ := h.use 1 _ _ hu
  refine ⟨e, d, _, _, _, _, hA, u1, ?_, fun n => ?_⟩
  rotate_left
  · by_cases hn : n = T 1 + 2
    · exact .inr (if_pos hn)
    · exact .inl (if_neg hn)
  have : T 2 = T 1 + 3 := t2
  rw [u2, if_pos (by omega)]

end

/-- The key of the letter a. -/
def Samples.letterA : KeyReport := ⟨0, #v[4, 0, 0, 0, 0, 0]⟩

theorem wish_wf (seq : UInt32) : WellFormed true (wish.cmd 65538 seq) := ⟨rfl, fun _ => Nat.le_refl 1, rfl, rfl, rfl⟩

/-- Four polls. -/
def Samples.four (u : Urb) : List (UInt32 × Urb) := [(8, u), (9, u), (10, u), (11, u)]

theorem four_wf {u : Urb} (h : ∀ seq, WellFormed true (u.cmd 65538 seq)) : ∀ q ∈ four u, WellFormed true (q.2.cmd 65538 q.1) := by
  intro q hq
  simp only [four, List.mem_cons, List.not_mem_nil, or_false] at hq
  rcases hq with rfl | rfl | rfl | rfl <;> exact h _

/-- A key is typed. -/
theorem typedOnce : ∃ (e : MachineExec (oneShot keyboardObj) (oneEnv keyboardObj) dev
      (Machine.init (oneShot keyboardObj) [devA] (oneWorld Keyboard.new))) (d : Nat → Driver)
      (keys : Nat → List KeyReport) (n0 n1 n2 : Nat),
      Polled e d (Keyboard.new.push letterA) (four wish) Keyboard.push [letterA] keys n0 n1 n2 :=
  polled ⟨four_wf wish_wf, by decide, by decide, by decide, by decide +kernel, by decide +kernel, by decide +kernel, by decide +kernel, by decide +kernel,
    rfl⟩ (by decide +kernel) _ _ rfl

/-- Two bytes are written. -/
theorem wroteOnce : ∃ (e : MachineExec (oneShot serialObj) (oneEnv serialObj) dev
      (Machine.init (oneShot serialObj) [devA] (oneWorld Cdc.new))) (d : Nat → Driver)
      (writes : Nat → List Bytes) (n0 n1 n2 : Nat),
      Polled e d (Cdc.new.write [1, 2]) (four wish) Cdc.write [[1, 2]] writes n0 n1 n2 :=
  polled ⟨four_wf wish_wf, by decide, by decide, by decide, by decide +kernel, by decide +kernel, by decide +kernel, by decide +kernel, by decide +kernel,
    rfl⟩ (by decide +kernel) _ _ rfl

/-- A poll for a single byte. -/
def Samples.wish1 : Urb := { wish with len := 1 }

theorem wish1_wf (seq : UInt32) : WellFormed true (wish1.cmd 65538 seq) := ⟨rfl, fun _ => Nat.le_refl 1, rfl, rfl, rfl⟩

/-- Two bytes are written, and the host asks for one. -/
theorem wroteMore : ∃ (e : MachineExec (oneShot serialObj) (oneEnv serialObj) dev
      (Machine.init (oneShot serialObj) [devA] (oneWorld Cdc.new))) (d : Nat → Driver)
      (writes : Nat → List Bytes) (n0 n1 n2 : Nat),
      Polled e d (Cdc.new.write [1, 2]) (four wish1) Cdc.write [[1, 2]] writes n0 n1 n2 :=
  polled ⟨four_wf wish1_wf, by decide, by decide, by decide, by decide +kernel, by decide +kernel, by decide +kernel, by decide +kernel, by decide +kernel,
    rfl⟩ (by decide +kernel) _ _ rfl

end Usbip
