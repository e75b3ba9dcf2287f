import Verif.Lemmas.Listed
/-!
# A client looks at the list of devices (C104)

A process that exports a device, Linux hosts that want it, and a client that looks at the list.
-/

namespace Usbip
open Spec Samples

section
variable {τ : Type} {code : Code τ} {env : Env (HandlerId → τ)} {p : Profile} {devices : List Device} {dev : Device}
  {w : World (HandlerId → τ)}
  {e : MachineExec code env p (Machine.init code devices w)} {H : Nat → Prop} {busid : Nat → Bytes} {devid : Nat → UInt32}
  {d : Nat → Nat → Driver} {c : Nat} {heard : Nat → Bytes}

/-- C104: what the client has received is a list of devices as they were at one moment after its request had arrived.  They are devices the
server was given; and if the hosts' device is among them, then it is there once, and no host has it.  If nobody but the hosts asks for the
device (as in C98) and the server has been given it, then it is missing in the list only if a host has it; and if it is in the list, then a
host whose request is handled before some other host is given the device is given it: it is never refused, and some time it has attached
the device. -/
theorem C104_list (hb : Behaves code env) (hl : Lister e c heard) (hf : Listable e devices)
    (ha : ∀ h, H h → Alongside e h (busid h) (devid h) (d h)) (hE : ∀ h, H h → Exported e devices dev (busid h)) (h0 : ∃ h, H h) :
    ∃ log : Nat → Nat → List Handled, (∀ h, H h → Exchanged e h (d h) (log h)) ∧
      ∀ n, heard n ≠ [] → ∃ m ds, m < n ∧ wireCmd (.reqDevlist 0) <+: arrivedBy e.label c m ∧ ShownAs (heard n) ds ∧
        TrueOf e devices dev H log m ds ∧
        (dev.path.length ≤ 256 → WantedBy e H dev.busId →
          (dev ∈ devicesBy e.label devices m → dev ∉ ds → ∃ h, H h ∧ Awarded dev (log h m) ∧ Keeps (e.state m) h dev) ∧
          (dev ∈ ds → ∀ h, H h → log h m = [] →
            (∀ k, m ≤ k → log h k = [] → log h (k + 1) ≠ [] → ∀ h2, H h2 → h2 ≠ h → Awarded dev (log h2 k) → Awarded dev (log h2 m)) →
            (∀ n, log h n ≠ [] → Awarded dev (log h n)) ∧
            (∀ n, (∀ g ∈ log h n, Modest g.2.1) → (d h n).phase ≠ .refused) ∧
            (Returns code → e.Fair →
              (∀ n t f i m k, (e.state n).whole.fine.cfg.flights t = some f → f.ev = .removeDevice i → f.code ≠ .lock .used m k) →
              Delivers e h (d h) → ∀ n, ((e.state n).front h = .accepted ∨
                ∃ k q, (e.state n).calls k = some (.listening q) ∧ h ∈ q ∧ ∀ m, n ≤ m → e.label m ≠ some (.dropServe k)) →
              ∃ m, n ≤ m ∧ ((d h m).phase = .attached ∨ Spoiled e h (d h) (log h) m)))) := by
  obtain ⟨ls, L, hA⟩ := all_told hb e
  obtain ⟨h0, hh0⟩ := h0
  refine ⟨fun c n => (L c n).map (·.2), fun h hh => hA.exchanged hb ha hh, fun n hn => ?_⟩
  cases n with
  | zero => exact absurd hl.start hn
  | succ n =>
  have hgot := (hl.hears n).trans (Told.got hb (hA.told c n)).1
  have hne : L c n ≠ [] := by
    intro h
    rw [h] at hgot
    exact hn (List.prefix_nil.mp hgot)
  obtain ⟨m, used, bytes, h1, h2, h3, h4, h5⟩ := hl.handled hA hne
  rw [h4] at hgot
  simp only [List.map_cons, List.map_nil, List.flatMap_cons, List.flatMap_nil, List.append_nil] at hgot
  obtain ⟨_, hlen, hifs⟩ := hA.sendable hf m
  have hC := contest hA ha hE hh0 m
  have hG := (hE h0 hh0).2
  refine ⟨m, shelf env p devices w (ls m), by omega, h3, shownAs_prefix h5 hlen hifs hgot,
    ⟨fun d hd => (hA.held m).devs d (List.mem_append_left _ hd), fun hd => ?_, fun hd h hh hg hend => ?_⟩,
    fun hpath hW => ⟨fun hd hav => with_host hb hA ha hE hpath hW hh0 hd hav, fun hav h hh hm hone => ?_⟩⟩
  · have hc : ((shelf env p devices w (ls m)).filter (fun d => d.busId = dev.busId)).length ≤ 1 := by
      refine Nat.le_trans ?_ (Nat.le_trans hC.stock.once (single_length (hG m)))
      unfold places
      rw [List.count_append, List.count_eq_length_filter, List.filter_map, List.length_map]
      refine Nat.le_trans (Nat.le_of_eq (congrArg List.length (List.filter_congr fun d _ => ?_))) (Nat.le_add_right _ _)
      rw [Bool.eq_iff_iff]
      simp [Function.comp]
    have hmem : dev ∈ (shelf env p devices w (ls m)).filter (fun d => d.busId = dev.busId) := List.mem_filter.mpr ⟨hd, by simp⟩
    generalize (shelf env p devices w (ls m)).filter (fun d => d.busId = dev.busId) = l at hc hmem
    match l, hc, hmem with
    | [a], _, hmem => rw [List.mem_singleton.mp hmem]
    | a :: b :: l, hc, _ => rw [List.length_cons, List.length_cons] at hc; omega
  · rw [← behind_ended hb (hA.told h m)] at hend
    exact (hC.gone h hh hg hend).1 dev hd rfl
  · have given : ∀ n, L h n ≠ [] → GivenBy dev (L h n) := by
      intro n
      induction n with
      | zero =>
        have := (hA.told h 0).made
        rw [hA.zero] at this
        exact fun hn => absurd this hn
      | succ n ih =>
        intro hn
        by_cases hz : L h n = []
        rotate_left
        · obtain ⟨t, ht⟩ := hA.grows h n
          rw [← ht]; exact givenBy_append (ih hz)
        by_cases hmn : m ≤ n
        rotate_left
        · have := hA.mono h (show n + 1 ≤ m by omega)
          rw [List.map_eq_nil_iff.mp hm] at this
          exact absurd (List.prefix_nil.mp this) hn
        apply Classical.byContradiction
        intro hg
        have hav' := still_there hA ha hE hpath hW hh hmn hav hz
          (hone n hmn (List.map_eq_nil_iff.mpr hz) (fun h => hn (List.map_eq_nil_iff.mp h)))
        rcases hA.step n with ⟨_, _, e2⟩ | ⟨lb, ev, hlb, hev, _, e1, e2⟩ | ⟨evs, _, _, _, e2⟩
        · rw [e2] at hn; exact hn hz
        · rw [e2, hz, List.nil_append] at hn hg
          exact refused_absent (hG n) (contest hA ha hE hh n).stock hh (fun _ _ _ => turns hA ha hE n) hz hn hg hav'
        · rw [e2] at hn; exact hn hz
    have safe : ∀ n, (∀ g ∈ (L h n).map (·.2), Modest g.2.1) → (d h n).phase ≠ .refused := by
      intro n hm hp
      obtain ⟨h1, h2⟩ := refused_without hb hA ha hh n hm hp
      exact h2 (given n h1)
    refine ⟨fun n hn => given n (fun h => hn (List.map_eq_nil_iff.mpr h)), safe, fun hret hfair hno hdel n hq => ?_⟩
    obtain ⟨m, hnm, alt⟩ := C92_returned code env p devices w e h _ _ _ hb hret hfair hno (ha h hh) hdel _ (hA.exchanged hb ha hh) n hq
    refine ⟨m, hnm, ?_⟩
    rcases alt with ⟨b1, b2, _⟩ | bad
    rotate_left
    · exact .inr bad
    by_cases hmod : ∀ g ∈ (L h m).map (·.2), Modest g.2.1
    rotate_left
    · exact .inr (.inl (Classical.byContradiction fun hn => hmod fun e he => Classical.byContradiction fun h => hn ⟨e, he, h⟩))
    have := safe m hmod
    left
    cases hph : (d h m).phase <;> simp_all

/-- C104: some time the client has received the list.  The execution is fair, handlers return, no `remove_device` call waits for the imported
devices (see `C62_needed`), the line works, and the client has been accepted or waits at a call of `server` that is not dropped; unless the
client ends its side, or the connection's task is dropped or cannot write.  The task does not panic. -/
theorem C104_shown (hb : Behaves code env) (hret : Returns code) (hfair : e.Fair)
    (hno : ∀ n t f i m k, (e.state n).whole.fine.cfg.flights t = some f → f.ev = .removeDevice i → f.code ≠ .lock .used m k)
    (hl : Lister e c heard) (hf : Listable e devices) (hll : ListLine e c heard) (n : Nat)
    (hq : (e.state n).front c = .accepted ∨ ∃ k q, (e.state n).calls k = some (.listening q) ∧ c ∈ q ∧
      ∀ m, n ≤ m → e.label m ≠ some (.dropServe k)) :
    (∀ m y, (e.state m).whole.fine.cfg.conns c = some y → y.status ≠ .panicked) ∧
    ∃ m, n ≤ m ∧ ((∃ r, decodeDevlist (heard m) = some (r, [])) ∨ (e.state m).whole.ended c ≠ none ∨
      ∃ y, (e.state m).whole.fine.cfg.conns c = some y ∧ e.Faulted c m y) := by
  obtain ⟨ls, L, hA⟩ := all_told hb e
  have hF := fed_of hb (e := e) (c := c) (said := fun _ => [.reqDevlist 0]) (fun _ => List.prefix_refl _) (fun _ => devlist_wf)
    (fun n => by rw [List.flatMap_cons, List.flatMap_nil, List.append_nil]; exact hl.speaks n)
    (fun n => (ls n, L c n)) (fun n => ⟨hA.told c n, hA.grows c n⟩)
  have calm : ∀ m y, (e.state m).whole.fine.cfg.conns c = some y → y.status ≠ .panicked := by
    intro m y hy hp
    have h4 := (C81_explained code env hb p devices w _ _ (hA.told c m).inv.whole).2.2.2.1 c ((hF m).rest y hy (by rw [hp]; simp))
    rw [hy, Option.map_some] at h4
    exact ((hl.calm hA hf m) _ h4).2 hp
  refine ⟨calm, ?_⟩
  obtain ⟨n1, h1, hacc⟩ : ∃ n1, n ≤ n1 ∧ (e.state n1).front c = .accepted := by
    rcases hq with hf | ⟨k, q, hk, hc, hd⟩
    · exact ⟨n, Nat.le_refl _, hf⟩
    · obtain ⟨m, _, _, bs, fin, h1, _, h3, _⟩ := C91_accepted code env p devices w e hb hfair n k c q hk hc hd
      exact ⟨m + 1, by omega, (after_accept h3).2.2.2⟩
  obtain ⟨n2, harr⟩ := hll.there
  obtain ⟨n3, h3, hacc3, harr3⟩ : ∃ n3, n ≤ n3 ∧ (e.state n3).front c = .accepted ∧ arrivedBy e.label c n3 = wireCmd (.reqDevlist 0) := by
    refine ⟨n1 + n2, by omega, accepted_stays hb hacc (by omega), ?_⟩
    exact List.IsPrefix.eq_of_length_le (hl.speaks _) (harr.trans (arrivedBy_mono (by omega))).length_le
  cases hxc : (e.state n3).whole.fine.cfg.conns c with
  | none => exact absurd hxc ((hA.told c n3).accepted hb hacc3)
  | some x =>
  by_cases hend : (e.state n3).whole.ended c = none
  rotate_left
  · exact ⟨n3, h3, .inr (.inl hend)⟩
  by_cases hr : x.status = .running
  rotate_left
  · rcases (hF n3).over x hxc hr with h | h | h
    · exact absurd h (calm n3 x hxc)
    · exact absurd hend h
    · exact ⟨n3, h3, .inr (.inr ⟨x, hxc, hr, h⟩)⟩
  obtain ⟨k1, k2⟩ := (hF n3).running x hxc hr hend
  suffices H : (∃ m l0, n3 ≤ m ∧ l0 <+: (L c m).map (·.2) ∧ l0 ≠ [] ∧ l0.flatMap (·.2.2) <+: (e.state m).whole.got c) ∨
      ∃ m y, n3 ≤ m ∧ (e.state m).whole.fine.cfg.conns c = some y ∧ e.Faulted c m y by
    rcases H with ⟨m, l0, g1, g2, g3, g4⟩ | ⟨m, y, g1, g2⟩
    rotate_left
    · exact ⟨m, by omega, .inr (.inr ⟨y, g2⟩)⟩
    obtain ⟨m5, g5, hback⟩ := hll.back m
    refine ⟨m5, by omega, .inl ?_⟩
    have hne : L c m ≠ [] := by
      intro h
      rw [h] at g2
      exact g3 (List.prefix_nil.mp g2)
    obtain ⟨m0, used, bytes, _, _, _, q4, q5⟩ := hl.handled hA hne
    obtain ⟨_, hlen, hifs⟩ := hA.sendable hf m0
    have hl0 : l0.flatMap (·.2.2) = bytes := by
      rw [q4] at g2
      match l0, g3, g2 with
      | a :: l, _, g2 =>
        simp only [List.map_cons, List.map_nil, List.cons_prefix_cons, List.prefix_nil] at g2
        obtain ⟨rfl, rfl⟩ := g2
        simp
    rw [hl0] at g4
    have hm5 : heard m5 <+: bytes := by
      cases m5 with
      | zero => rw [hl.start]; exact List.nil_prefix
      | succ m5 =>
        have hgot := (hl.hears m5).trans (Told.got hb (hA.told c m5)).1
        by_cases hz : L c m5 = []
        · rw [hz] at hgot
          rw [List.prefix_nil.mp hgot]; exact List.nil_prefix
        · obtain ⟨m0', used', bytes', _, _, _, q4', q5'⟩ := hl.handled hA hz
          have : L c m5 = L c m := by
            rcases Nat.le_total m5 m with h | h
            · have := hA.mono c h
              exact this.eq_of_length_le (by rw [q4, q4']; exact Nat.le_refl _)
            · have := hA.mono c h
              exact (this.eq_of_length_le (by rw [q4, q4']; exact Nat.le_refl _)).symm
          rw [this, q4] at hgot
          simpa using hgot
    have : heard m5 = bytes := hm5.eq_of_length_le (g4.trans hback).length_le
    have hd := C09_devlist_decodes p _ bytes [] q5 hlen hifs
    rw [List.append_nil] at hd
    rw [this]
    exact ⟨_, hd⟩
  by_cases hk : 1 ≤ x.served.length
  · obtain ⟨l0, j1, j2, j3⟩ := (hF n3).part x hxc hr
    refine .inl ⟨n3, l0, Nat.le_refl _, j1, ?_, ?_⟩
    · rintro rfl
      rw [j2] at hk; simp at hk
    · rw [← j3]; exact (hF n3).out x hxc
  · have hz : x.served.length = 0 := by omega
    rw [hz, List.take_zero, List.flatMap_nil, List.nil_append, harr3] at k2
    obtain ⟨m, y, j1, j2, j3, j4, j5⟩ := C91_answered code env p devices w e hb hret hfair hno n3 c x hxc hr
      [(.reqDevlist 0, wireCmd (.reqDevlist 0))] (by simp)
      (by
        intro q hq
        rw [List.mem_singleton.mp hq]
        have hw := wellFormed_weaken (b := p.debugAssertions) (devlist_wf _ (List.mem_singleton.mpr rfl))
        exact ⟨hw, packetFor_wire _ hw⟩) [] (by simpa using k2)
    rcases j5 with ⟨⟨resps, bytes, a1, a2, a3, a4⟩, a5⟩ | a | a
    · obtain ⟨b1, b2, _⟩ := (Told.got hb (hA.told c m)).2 y j2 j3 a5
      refine .inl ⟨m, _, by omega, List.prefix_refl _, ?_, by rw [b1]; exact List.prefix_refl _⟩
      intro h
      rw [h] at b2
      rw [b2] at a2
      simp only [List.length_map, List.length_cons, List.length_nil] at a1
      have := congrArg List.length a2
      simp only [List.length_map, List.length_nil, List.length_append, List.length_zip, List.length_cons] at this
      omega
    · exact absurd a (calm m y j2)
    · exact .inr ⟨m, y, by omega, j2, a⟩

end

namespace Samples

/-- The server is made with another device; the application adds this one.  Client 2 looks at the list; host 0 attaches the device; client 3 looks at
the list; host 0 hangs up; host 1 attaches the device. -/
def looks : List Turn :=
  [.add devA, .enter 2 (wireCmd (.reqDevlist 0)), .iterate 2, .enter 0 (asks (fun _ => busA) 0), .iterate 0,
   .enter 3 (wireCmd (.reqDevlist 0)), .iterate 3, .hangup 0 .unexpectedEof, .iterate 0, .enter 1 (asks (fun _ => busA) 1), .iterate 1]

theorem looksEnter (c : Nat) (hc : c < 4) : ∃ bs, Turn.enter c bs ∈ looks := by
  unfold looks
  match c, hc with
  | 0, _ => exact ⟨_, .tail _ (.tail _ (.tail _ (.head _)))⟩
  | 1, _ => exact ⟨_, .tail _ (.tail _ (.tail _ (.tail _ (.tail _ (.tail _ (.tail _ (.tail _ (.tail _ (.head _)))))))))⟩
  | 2, _ => exact ⟨_, .tail _ (.head _)⟩
  | 3, _ => exact ⟨_, .tail _ (.tail _ (.tail _ (.tail _ (.tail _ (.head _)))))⟩

theorem looksFits : CrowdFits (oneEnv keyboardObj) dev [devB] (oneWorld Keyboard.new) (fun _ => busA) 2 4 looks
    (fun c => match c with | 0 => 5 | _ => 11) := by
  refine ⟨by decide, by decide +kernel, by decide +kernel, by decide, by decide +kernel, looksEnter, ?_, ?_, by decide +kernel⟩
  · intro c hc x hx
    have : ∀ c, c < 4 → (((netTurns (oneEnv keyboardObj) dev (crowdStart [devB] (oneWorld Keyboard.new)) looks).sys.conns c).all
        fun x => decide (x.input.bytes = [] ∧ (x.status = .running →
          (netTurns (oneEnv keyboardObj) dev (crowdStart [devB] (oneWorld Keyboard.new)) looks).ended c = none))) = true := by
      decide +kernel
    have := this c hc
    rw [hx] at this
    exact of_decide_eq_true this
  · intro x hx
    simp only [looks, List.mem_cons, List.not_mem_nil, or_false] at hx
    rcases hx with rfl | rfl | rfl | rfl | rfl | rfl | rfl | rfl | rfl | rfl | rfl <;> decide

/-- Both hosts attach the device; client 2 sees it in the list, client 3 does not. -/
example : ∃ (e : MachineExec (oneShot keyboardObj) (oneEnv keyboardObj) dev
      (Machine.init (oneShot keyboardObj) [devB] (oneWorld Keyboard.new))) (d : Nat → Nat → Driver) (heard : Nat → Nat → Bytes) (N : Nat),
    Behaves (oneShot keyboardObj) (oneEnv keyboardObj) ∧ (∀ c, c = 2 ∨ c = 3 → Lister e c (heard c)) ∧ Listable e [devB] ∧
    (∀ h, h < 2 → Alongside e h busA 65538 (d h)) ∧ (∀ h, h < 2 → Exported e [devB] devA busA) ∧ (∃ h, h < 2) ∧
    devA.path.length ≤ 256 ∧ WantedBy e (· < 2) devA.busId ∧ Returns (oneShot keyboardObj) ∧ e.Fair ∧
    (∀ n t f i m k, (e.state n).whole.fine.cfg.flights t = some f → f.ev = .removeDevice i → f.code ≠ .lock .used m k) ∧
    (∀ h, h < 2 → Delivers e h (d h)) ∧ (∀ c, c = 2 ∨ c = 3 → ListLine e c (heard c)) ∧
    (∀ c, c < 4 → ∃ n k q, (e.state n).calls k = some (.listening q) ∧ c ∈ q ∧ ∀ m, n ≤ m → e.label m ≠ some (.dropServe k)) ∧
    (∀ h, h < 2 → (d h N).phase = .attached) ∧
    decodeDevlist (heard 2 N) = some (.devlist 0 ([devB, devA].map fun d => (devInfo d, ifInfo d)), []) ∧
    decodeDevlist (heard 3 N) = some (.devlist 0 ([devB].map fun d => (devInfo d, ifInfo d)), []) := by
  obtain ⟨e, d, h⟩ := crowded (oneShot_behaves keyboardObj) (oneShot_returns keyboardObj) (fun _ => 65538) looksFits
  obtain ⟨N, hN⟩ := h.last
  obtain ⟨A, hA⟩ := h.arrived
  obtain ⟨T, hT⟩ := h.hears
  let out : Nat → Bytes := fun c => outOf ((netTurns (oneEnv keyboardObj) dev (crowdStart [devB] (oneWorld Keyboard.new)) looks).sys.conns c)
  let heard : Nat → Nat → Bytes := fun c n => if n ≤ T then [] else out c
  have late : ∀ c n, T < n → heard c n = out c := fun c n h => if_neg (by omega)
  have own : ∀ n lb ev, e.label n = some (.inner lb) → tcpEvent lb = some ev → ∃ x : Turn, x.events = [ev] := fun n lb ev hl he =>
    have ⟨x, _, ho⟩ := h.owns n lb hl ev he
    ⟨x, ho⟩
  have all : [devB] ++ looks.flatMap Turn.gives = [devB, devA] := rfl
  have mem : ∀ n, ∀ d ∈ devicesBy e.label [devB] n, d = devB ∨ d = devA := fun n d hd => by
    have := (h.given n).subset hd
    rw [all] at this
    simpa using this
  have brings : ∀ c, c = 2 ∨ c = 3 → looks.flatMap (Turn.brings c) = wireCmd (.reqDevlist 0) := by
    rintro c (rfl | rfl) <;> decide +kernel
  have given : ∀ n, Single devA (devicesBy e.label [devB] n) := fun n => single_prefix (by rw [all]; simp [Single, devA, devB]) (h.given n)
  refine ⟨e, d, heard, N + T + 1, oneShot_behaves _, fun c hc => ⟨if_pos (Nat.zero_le _), fun n => ?_, fun n => ?_⟩,
    ⟨fun n d hd => ?_, fun n => ?_, fun _ n d hd => ?_⟩, h.alongside, fun _ _ => ⟨by decide, given⟩, ⟨0, by decide⟩, by decide,
    ⟨fun c hc ⟨n, ha⟩ => .inl ⟨fun _ => [.reqDevlist 0], ?_, ?_⟩, fun n lb hl ht => ?_⟩, oneShot_returns _, h.fair, h.noRemovals, h.delivers,
    fun c hc => ⟨⟨A, ?_⟩, fun n => ⟨n + T + 1, by omega, ?_⟩⟩, fun c hc => ?_, fun c hc => ?_, ?_, ?_⟩
  · rw [← brings c hc]; exact h.arrives c n
  · by_cases hn : n + 1 ≤ T
    · rw [show heard c (n + 1) = [] from if_pos hn]; exact List.nil_prefix
    · rw [late c _ (by omega), hT n (by omega) c]; exact List.prefix_refl _
  · rcases mem n d hd with rfl | rfl <;> decide
  · have := (h.given n).length_le
    rw [all] at this
    exact Nat.lt_of_le_of_lt this (by decide)
  · rcases mem n d hd with rfl | rfl <;> decide
  · have hc4 := h.only n c ha
    have hc : ¬ c < 2 := hc
    exact fun n => ⟨devlist_wf, by
      rw [List.flatMap_cons, List.flatMap_nil, List.append_nil, ← brings c (by omega)]; exact h.arrives c n⟩
  · intro n st b hm
    rw [List.mem_singleton] at hm; cases hm
  · obtain ⟨x, hx⟩ := own n lb _ hl ht
    cases x <;> cases hx
  · rw [hA c, brings c hc]; exact List.prefix_refl _
  · rw [late c _ (by omega)]
    exact h.sent n c
  · obtain ⟨n, hn⟩ := h.queued c hc
    exact ⟨n, 0, [c], hn, List.mem_singleton.mpr rfl, fun m _ => h.serves m 0⟩
  · rw [(hN _ (by omega)).1 c hc]
    have : ∀ c, c < 2 → ((Driver.start busA 65538).hear (outOf ((netTurns (oneEnv keyboardObj) dev
        (crowdStart [devB] (oneWorld Keyboard.new)) looks).sys.conns c))).phase = .attached := by decide +kernel
    exact this c hc
  · rw [late _ _ (by omega)]; decide +kernel
  · rw [late _ _ (by omega)]; decide +kernel

end Samples

end Usbip
