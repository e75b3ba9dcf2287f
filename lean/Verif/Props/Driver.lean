import Verif.Lemmas.DriverSample
/-!
# A Linux host gets its transfers back (C92)
-/

namespace Usbip
open Spec Samples

section
variable {τ : Type} (code : Code τ) (env : Env (HandlerId → τ)) (p : Profile) (devices : List Device)
  (w : World (HandlerId → τ)) (e : MachineExec code env p (Machine.init code devices w)) (c : Nat) (busid : Bytes)
  (devid : UInt32) (d : Nat → Driver)

/-- C92: in every execution with a host as client `c`, what the server makes of its requests is one response each,
in their order; what has left for the host is a beginning of these responses. -/
theorem C92_exchange (hb : Behaves code env) (ha : Alongside e c busid devid d) : ∃ log, Exchanged e c d log :=
  exchanged hb ha

/-- C92: whatever happens, at every moment: the host finds something that must not happen if, and only if, a
response does not fit its request (too much data), and then it has received the responses before and the header of
that one.  If not, no transfer was lost, given back twice, or taken back because of a cancellation: the transfers that
were asked for are the ones that have been given back, in this order, and then the pending ones; each was given
back with the result the server had for it.  The host has a device only if one was exported, with the bus id it
has asked for. -/
theorem C92_safe (ha : Alongside e c busid devid d) (log : Nat → List Handled) (hx : Exchanged e c d log) (n : Nat)
    (hm : ∀ e ∈ log n, Modest e.2.1) :
    ((d n).phase = .broken ↔ Overrun (log n) (d n).heard) ∧ (d n).revoked = [] ∧
    ((d n).phase ≠ .broken →
      (d n).done.map (fun g => (g.seq, g.urb)) ++ (d n).pending = (d n).issued ∧
      (d n).done.map (fun g => (g.urb.cmd devid g.seq, g.status, g.data)) <+: (log n).filterMap outcome) ∧
    ((d n).phase = .attached → ∃ e0 rest dev, log n = e0 :: rest ∧ e0.1 = .reqImport 0 busid ∧
      e0.2.1 = .repImport 0 (some dev) ∧ dev.busId = cstr busid) ∧
    ((d n).phase = .refused → ∃ e0, log n = [e0] ∧ e0.1 = .reqImport 0 busid ∧ e0.2.1 = .repImport 1 none) := by
  obtain ⟨hD, hE, hq⟩ := host_inv ha hx n hm
  obtain ⟨hid, hdev⟩ := host_ids ha n
  have first : ∀ e0 rest, log n = e0 :: rest → e0.1 = .reqImport 0 busid := by
    intro e0 rest h
    have h1 := hE.cmds
    have h2 := (ha.said_mono (Nat.zero_le n)).1
    rw [ha.start] at h2
    obtain ⟨t, ht⟩ := h2
    rw [h, ← ht] at h1
    simp only [Driver.start, List.map_cons, List.cons_append, List.cons_prefix_cons] at h1
    exact h1.1
  refine ⟨⟨fun hp => ?_, fun ho => Classical.byContradiction fun hp => not_overrun hD hE hq hp ho⟩, hD.revoked, fun hp => ?_,
    fun hp => ?_, fun hp => ?_⟩
  · have := hD.state; rw [hp] at this; exact this
  · have hs := hD.state
    cases hph : (d n).phase with
    | importing =>
      rw [hph] at hs
      obtain ⟨_, h2, _, h4, h5, _⟩ := hs
      rw [h2, h4, h5]; exact ⟨rfl, List.nil_prefix⟩
    | refused =>
      rw [hph] at hs
      obtain ⟨_, _, h2, _, h4, h5⟩ := hs
      rw [h2, h4, h5]; exact ⟨rfl, List.nil_prefix⟩
    | broken => exact absurd hph hp
    | attached =>
      rw [hph] at hs
      obtain ⟨e0, l1, l2, todo, hA⟩ := hs
      refine ⟨hA.issued, ?_⟩
      rw [← hdev, hA.results, hA.split]
      have he : outcome e0 = none := by
        have := first e0 (l1 ++ l2) (by rw [hA.split]; rfl)
        obtain ⟨a, b, cc⟩ := e0
        dsimp only at this
        subst this; rfl
      rw [List.cons_append, List.filterMap_cons_none he, List.filterMap_append]
      exact List.prefix_append _ _
  · have hs := hD.state
    rw [hp] at hs
    obtain ⟨e0, l1, l2, todo, hA⟩ := hs
    obtain ⟨dev, h1, h2⟩ := hA.first
    exact ⟨e0, l1 ++ l2, dev, hA.split, first e0 _ (by rw [hA.split]; rfl), h1, by rw [h2, hid]⟩
  · have hs := hD.state
    rw [hp] at hs
    obtain ⟨⟨e0, h1, h2⟩, _⟩ := hs
    exact ⟨e0, h1, first e0 [] h1, h2⟩

/-- C92: in a fair execution in which handler code always returns and no `remove_device` call waits for the imported
devices (see `C62_needed`), with a line that works, a host that has been accepted, or waits at a call of `server` that
is not dropped, gets a reply to its import request, and every transfer that was asked for is given back, in the
order in which they were asked for; unless the host has received a response that does not fit its request, the
client's side of the connection was ended, or the connection's task has panicked, or was dropped or could not write. -/
theorem C92_returned (hb : Behaves code env) (hret : Returns code) (hfair : e.Fair)
    (hno : ∀ n t f i m k, (e.state n).whole.fine.cfg.flights t = some f → f.ev = .removeDevice i → f.code ≠ .lock .used m k)
    (ha : Alongside e c busid devid d) (hl : Delivers e c d) (log : Nat → List Handled) (hx : Exchanged e c d log) (n : Nat)
    (hf : (e.state n).front c = .accepted ∨ ∃ k q, (e.state n).calls k = some (.listening q) ∧ c ∈ q ∧
      ∀ m, n ≤ m → e.label m ≠ some (.dropServe k)) :
    ∃ m, n ≤ m ∧
      (((d m).phase ≠ .importing ∧ (d m).phase ≠ .broken ∧ (d n).issued <+: (d m).done.map (fun g => (g.seq, g.urb))) ∨
      (∃ e ∈ log m, ¬ Modest e.2.1) ∨ Overrun (log m) (d m).heard ∨ (e.state m).whole.ended c ≠ none ∨
      ∃ y, (e.state m).whole.fine.cfg.conns c = some y ∧ (y.status = .panicked ∨ e.Faulted c m y)) := by
  obtain ⟨f, hf', _⟩ := exists_told hb e c
  -- accepted
  obtain ⟨n1, h1, hacc⟩ : ∃ n1, n ≤ n1 ∧ (e.state n1).front c = .accepted := by
    rcases hf with hf | ⟨k, q, hk, hc, hd⟩
    · exact ⟨n, Nat.le_refl _, hf⟩
    · obtain ⟨m, _, _, bs, fin, h1, _, h3, _⟩ := C91_accepted code env p devices w e hb hfair n k c q hk hc hd
      exact ⟨m + 1, by omega, (after_accept h3).2.2.2⟩
  -- everything is there
  obtain ⟨n2, h2, harr⟩ := hl.there n
  obtain ⟨n3, h3, hacc3, harr3⟩ : ∃ n3, n ≤ n3 ∧ (e.state n3).front c = .accepted ∧
      (d n).said.flatMap wireCmd <+: arrivedBy e.label c n3 := by
    refine ⟨n1 + n2, by omega, accepted_stays hb hacc (by omega), harr.trans (arrivedBy_mono (by omega))⟩
  have hF := fed hb ha f hf' n3
  cases hxc : (e.state n3).whole.fine.cfg.conns c with
  | none => exact absurd hxc ((hf' n3).1.accepted hb hacc3)
  | some x =>
  by_cases hend : (e.state n3).whole.ended c = none
  rotate_left
  · exact ⟨n3, h3, .inr (.inr (.inr (.inl hend)))⟩
  by_cases hr : x.status = .running
  rotate_left
  · refine ⟨n3, h3, .inr (.inr (.inr (.inr ⟨x, hxc, ?_⟩)))⟩
    rcases hF.over x hxc hr with h | h | h
    · exact .inl h
    · exact absurd hend h
    · exact .inr ⟨hr, h⟩
  obtain ⟨k1, k2⟩ := hF.running x hxc hr hend
  have hsaid := (ha.said_mono h3).1
  -- answered
  suffices H : (∃ m l0, n3 ≤ m ∧ l0 <+: log m ∧ (d n).said.length ≤ l0.length ∧
      l0.flatMap (·.2.2) <+: (e.state m).whole.got c) ∨
      ∃ m y, n3 ≤ m ∧ (e.state m).whole.fine.cfg.conns c = some y ∧ (y.status = .panicked ∨ e.Faulted c m y) by
    rcases H with ⟨m, l0, g1, g2, g3, g4⟩ | ⟨m, y, g1, g2⟩
    rotate_left
    · exact ⟨m, by omega, .inr (.inr (.inr (.inr ⟨y, g2⟩)))⟩
    obtain ⟨m5, g5, hback⟩ := hl.back m
    refine ⟨m5, by omega, ?_⟩
    by_cases hm : ∀ e ∈ log m5, Modest e.2.1
    rotate_left
    · refine .inr (.inl (Classical.byContradiction fun hn => hm fun e he => Classical.byContradiction fun h => hn ⟨e, he, h⟩))
    obtain ⟨hD, hE, hq⟩ := host_inv ha hx m5 hm
    by_cases hp : (d m5).phase = .broken
    · refine .inr (.inr (.inl ?_))
      have := hD.state; rw [hp] at this; exact this
    refine .inl ?_
    have hne : l0 ≠ [] := by
      have h0 := (ha.said_mono (Nat.zero_le n)).1.length_le
      rw [ha.start] at h0
      rintro rfl
      simp only [Driver.start, List.length_cons, List.length_nil] at h0 g3
      omega
    obtain ⟨q1, q2⟩ := caught_up hD hE hq hp (g2.trans (hx.mono g5)) hne (g4.trans hback)
    refine ⟨q1, hp, ?_⟩
    have hiss := (ha.said_mono (show n ≤ m5 by omega)).2.2
    have hs := hD.state
    cases hph : (d m5).phase with
    | importing => exact absurd hph q1
    | broken => exact absurd hph hp
    | refused =>
      rw [hph] at hs
      rw [hs.2.2.2.2.2] at hiss
      rw [List.prefix_nil.mp hiss]
      exact List.nil_prefix
    | attached =>
      rw [hph] at hs
      obtain ⟨e0, l1, l2, todo, hA⟩ := hs
      have hlen := q2 e0 l1 l2 todo hph hA
      have hsd := (ha.said_mono (show n ≤ m5 by omega)).1
      rw [← hA.issued] at hiss
      refine List.prefix_of_prefix_length_le hiss (List.prefix_append _ _) ?_
      have hpre : (d n).said <+: .reqImport 0 (d m5).busid :: l1.map (·.1) := by
        refine List.prefix_of_prefix_length_le hsd ?_ ?_
        · rw [hA.said]; exact List.prefix_append _ _
        · simp only [List.length_cons, List.length_map]; omega
      have hlog : Log p l1 := fun e he => hE.ok e (by rw [hA.split]; simp [he])
      rw [host_count ha n]
      have h5 := outcome_count hlog
      have h6 : ((d m5).done.map (fun g => (g.seq, g.urb))).length = (l1.filterMap outcome).length := by
        rw [← hA.results, List.length_map, List.length_map]
      rw [h6, ← h5]
      have := (hpre.filter isSubmit).length_le
      rwa [List.filter_cons_of_neg (by simp [isSubmit])] at this
  by_cases hk : (d n).said.length ≤ x.served.length
  · obtain ⟨l0, j1, j2, j3⟩ := hx.served n3 x hxc hr
    refine .inl ⟨n3, l0, Nat.le_refl _, j1, ?_, ?_⟩
    · rw [j2, List.length_map] at hk; exact hk
    · rw [← j3]; exact hF.out x hxc
  · have hstill : ∃ rest, x.input.bytes ++ (e.state n3).whole.buf c =
        ((((d n).said.drop x.served.length).map (fun q => (q, wireCmd q))).map (·.2)).flatten ++ rest := by
      obtain ⟨t, ht⟩ := harr3
      obtain ⟨u, hu⟩ := hsaid
      rw [← hu, List.take_append_of_le_length (by omega), ← ht] at k2
      refine ⟨t, ?_⟩
      conv at k2 => rhs; rw [← List.take_append_drop x.served.length (d n).said]
      rw [List.flatMap_append, List.append_assoc] at k2
      rw [List.append_cancel_left k2, List.map_map, List.flatMap_def]
      rfl
    obtain ⟨rest, hrest⟩ := hstill
    obtain ⟨m, y, j1, j2, j3, j4, j5⟩ := C91_answered code env p devices w e hb hret hfair hno n3 c x hxc hr
      (((d n).said.drop x.served.length).map (fun q => (q, wireCmd q)))
      (by
        intro h
        have := congrArg List.length h
        simp only [List.length_map, List.length_drop, List.length_nil] at this
        omega)
      (by
        intro q hq
        obtain ⟨q', hq', rfl⟩ := List.mem_map.mp hq
        have hw := wellFormed_weaken (b := p.debugAssertions) (ha.wellFormed n q' (List.mem_of_mem_drop hq'))
        exact ⟨hw, packetFor_wire q' hw⟩) rest hrest
    rcases j5 with ⟨⟨resps, bytes, a1, a2, a3, a4⟩, a5⟩ | a | ⟨a1, k, lb, a2, a3, a4⟩
    · obtain ⟨b1, b2⟩ := hx.all m y j2 j3 a5
      refine .inl ⟨m, log m, by omega, List.prefix_refl _, ?_, by rw [b1]; exact List.prefix_refl _⟩
      have := congrArg List.length b2
      rw [a2] at this
      simp only [List.length_append, List.length_zip, List.length_map, List.length_drop] at this a1
      omega
    · exact .inr ⟨m, y, by omega, j2, .inl a⟩
    · exact .inr ⟨m, y, by omega, j2, .inr ⟨a1, k, lb, a2, a3, a4⟩⟩

/-- C92: the connection of a host does not end by itself: the host has ended its side, or the connection's task has
panicked, was dropped, or could not write. -/
theorem C92_ends (hb : Behaves code env) (ha : Alongside e c busid devid d) (n : Nat) (x : Conn)
    (hx : (e.state n).whole.fine.cfg.conns c = some x) (hr : x.status ≠ .running) :
    (e.state n).whole.ended c ≠ none ∨ x.status = .panicked ∨ e.Faulted c n x := by
  obtain ⟨f, hf, _⟩ := exists_told hb e c
  rcases (fed hb ha f hf n).over x hx hr with h | h | h
  · exact .inr (.inl h)
  · exact .inl h
  · exact .inr (.inr ⟨hr, h⟩)

/-- C92: in a build with debug assertions, responses are what `C92_safe` wants of them if they have less than 2 GiB of data. -/
theorem C92_checked (hp : p.debugAssertions = true) (log : Nat → List Handled) (hx : Exchanged e c d log) (n : Nat)
    (hs : ∀ e ∈ log n, ∀ h st len sf np ec buf iso, e.2.1 = .retSubmit h st len sf np ec buf iso → buf.length < 2 ^ 31) :
    ∀ e ∈ log n, Modest e.2.1 := by
  intro e he
  obtain ⟨h1, h2, _⟩ := hx.ok n e he
  have h3 := hs e he
  obtain ⟨cmd, r, bs⟩ := e
  dsimp only at h1 h2 h3 ⊢
  cases r with
  | retSubmit h st len sf np ec buf iso =>
    have hlen := h3 h st len sf np ec buf iso rfl
    exact ⟨hlen, noOutData_checked hp h1 h2 (Nat.lt_trans hlen (by decide))⟩
  | _ => trivial

end

/-! ## Cases -/

/-- C92 on `attachedToProcess`: all hypotheses are met.  The host waits while its client is not yet accepted; when it has the
device it asks for a transfer, and gets it back with the handler's byte. -/
example : ∃ (e : MachineExec adder adderEnv dev (Machine.init adder [devA] adderWorld)) (d : Nat → Driver)
    (log : Nat → List Handled) (T : Nat), Alongside e 0 busA 65538 d ∧ Exchanged e 0 d log ∧
    (d T).phase = .importing ∧ (d (T + 1)).phase = .attached ∧ (d (T + 1)).issued = [(8, wish)] ∧
    (∃ m, T < m ∧ (d m).done = [⟨8, wish, 0, [7]⟩]) ∧
    (∃ m, 3 ≤ m ∧ (((d m).phase ≠ .importing ∧ (d m).phase ≠ .broken ∧
        (d 3).issued <+: (d m).done.map (fun g => (g.seq, g.urb))) ∨
      (∃ e ∈ log m, ¬ Modest e.2.1) ∨ Overrun (log m) (d m).heard ∨ (e.state m).whole.ended 0 ≠ none ∨
      ∃ y, (e.state m).whole.fine.cfg.conns 0 = some y ∧ (y.status = .panicked ∨ e.Faulted 0 m y))) ∧
    (∃ m, T + 1 ≤ m ∧ (((d m).phase ≠ .importing ∧ (d m).phase ≠ .broken ∧
        (d (T + 1)).issued <+: (d m).done.map (fun g => (g.seq, g.urb))) ∨
      (∃ e ∈ log m, ¬ Modest e.2.1) ∨ Overrun (log m) (d m).heard ∨ (e.state m).whole.ended 0 ≠ none ∨
      ∃ y, (e.state m).whole.fine.cfg.conns 0 = some y ∧ (y.status = .panicked ∨ e.Faulted 0 m y))) := by
  obtain ⟨e, d, T, U, hfair, hno, ha, hl, h4, hTU, hfront, ⟨hcall, hdrop⟩, d0, d1, d2⟩ := attachedToProcess
  obtain ⟨log, hx⟩ := C92_exchange adder adderEnv dev [devA] adderWorld e 0 busA 65538 d adder_behaves ha
  refine ⟨e, d, log, T, ha, hx, ?_, ?_, ?_, ⟨U + 1, by omega, ?_⟩, ?_, ?_⟩
  · rw [d0 T (Nat.le_refl _)]; rfl
  · rw [d1 (T + 1) (by omega) (by omega)]; decide +kernel
  · rw [d1 (T + 1) (by omega) (by omega)]; exact host1_facts.2.2.2.2.2.2.1
  · rw [d2 (U + 1) (by omega)]; exact host2_facts.2.2.2.1
  · exact C92_returned adder adderEnv dev [devA] adderWorld e 0 busA 65538 d adder_behaves adder_returns hfair hno ha hl log hx 3
      (.inr ⟨0, [0], hcall, by simp, fun m _ => hdrop m 0⟩)
  · exact C92_returned adder adderEnv dev [devA] adderWorld e 0 busA 65538 d adder_behaves adder_returns hfair hno ha hl log hx
      (T + 1) (.inl (hfront _ (by omega)))

/-- C92_safe there, when the host has got its transfer back. -/
example : ∃ (e : MachineExec adder adderEnv dev (Machine.init adder [devA] adderWorld)) (d : Nat → Driver)
    (log : Nat → List Handled) (n : Nat), Exchanged e 0 d log ∧ (d n).done = [⟨8, wish, 0, [7]⟩] ∧
    ((∀ e ∈ log n, ∀ h st len sf np ec buf iso, e.2.1 = .retSubmit h st len sf np ec buf iso → buf.length < 2 ^ 31) →
      ¬ Overrun (log n) (d n).heard ∧ (askHandler, 0, [7]) ∈ (log n).filterMap outcome ∧
      ∃ e0 rest dev, log n = e0 :: rest ∧ e0.1 = .reqImport 0 busA ∧ e0.2.1 = .repImport 0 (some dev) ∧
        dev.busId = cstr busA) := by
  obtain ⟨e, d, T, U, hfair, hno, ha, hl, h4, hTU, hfront, _, d0, d1, d2⟩ := attachedToProcess
  obtain ⟨log, hx⟩ := C92_exchange adder adderEnv dev [devA] adderWorld e 0 busA 65538 d adder_behaves ha
  refine ⟨e, d, log, U + 1, hx, by rw [d2 _ (by omega)]; exact host2_facts.2.2.2.1, fun hs => ?_⟩
  obtain ⟨h1, _, h2, h3, _⟩ := C92_safe adder adderEnv dev [devA] adderWorld e 0 busA 65538 d ha log hx (U + 1)
    (C92_checked adder adderEnv dev [devA] adderWorld e 0 d rfl log hx (U + 1) hs)
  have hp : (d (U + 1)).phase = .attached := by rw [d2 _ (by omega)]; exact host2_facts.2.2.1
  refine ⟨fun ho => ?_, ?_, h3 hp⟩
  · have := h1.2 ho
    rw [hp] at this; cases this
  · have := (h2 (by rw [hp]; simp)).2
    rw [d2 _ (by omega), host2_facts.2.2.2.1] at this
    exact this.subset (List.mem_singleton.mpr rfl)

/-- Test: a host that has asked for 64 bytes and is told that 65 follow closes the connection; with 64 it does not. -/
example : (host1.hear ([0, 0, 0, 3, 0, 0, 0, 8] ++ List.replicate 16 0 ++ [0, 0, 0, 65] ++ List.replicate 20 0)).phase = .broken ∧
    (host1.hear ([0, 0, 0, 3, 0, 0, 0, 8] ++ List.replicate 16 0 ++ [0, 0, 0, 64] ++ List.replicate 20 0)).phase = .attached ∧
    -- a number nobody has asked for
    (host1.hear ([0, 0, 0, 3, 0, 0, 0, 9] ++ List.replicate 40 0)).phase = .broken ∧
    -- a device other than the one asked for, a refusal
    (host0.hear ([1, 17, 0, 3, 0, 0, 0, 0] ++ List.replicate 256 0 ++ busB ++ List.replicate 24 0)).phase = .broken ∧
    (host0.hear [1, 17, 0, 3, 0, 0, 0, 1]).phase = .refused := by
  decide +kernel

/-- Test: a transfer that is cancelled while it is being answered: the server answers both, in order, and the
transfer is given back with its data. -/
example : let d : Driver := { host1 with unlinks := [(9, 8)], said := host1.said ++ [unlinkCmd 65538 9 8] }
    let d' := (d.hear reply2).hear ([0, 0, 0, 4, 0, 0, 0, 9] ++ List.replicate 40 0)
    host1.Moves d ∧ d'.done = [⟨8, wish, 0, [7]⟩] ∧ d'.revoked = [] ∧ d'.unlinks = [] ∧ d'.phase = .attached := by
  have key : ∀ d : Driver, d.unlinks = [] → d.devid = 65538 → d.phase = .attached → d.pending = [(8, wish)] →
      d.Moves { d with unlinks := [(9, 8)], said := d.said ++ [unlinkCmd 65538 9 8] } := by
    intro d h1 h2 h3 h4
    have := Driver.Moves.unlink (.refl d) 9 8 h3 ⟨fun e he => by rw [h4] at he; simp at he; rw [he]; decide,
      fun e he => by rw [h1] at he; cases he⟩ ⟨wish, by rw [h4]; simp⟩
    rw [h1, h2, List.nil_append] at this
    rw [h2]
    exact this
  exact ⟨key host1 (by decide +kernel) (by decide +kernel) (by decide +kernel) (by decide +kernel), by decide +kernel⟩

end Usbip
