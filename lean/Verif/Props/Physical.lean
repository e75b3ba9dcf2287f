import Verif.Lemmas.Physical
import Verif.Lemmas.AttendedSample
import Verif.Props.Host
/-! # C97: a Linux host uses a device that is shared through libusb -/

namespace Usbip
open Spec

section
variable {σ τ : Type} {host : HandlerId → Option HandlerId} {lib : HandlerId → RusbLib τ} {code : Code σ} {env : Env (HandlerId → σ)}
  {p : Profile} {devices : List Device} {dev : Device} {o : HandlerId}
  {w : World (HandlerId → σ × Handle (τ × List LibCall))}
  {e : MachineExec (hostCode host (fun o => watchLib (lib o)) code) (hostEnv host (fun o => watchLib (lib o)) env) p
    (Machine.init _ devices w)}
  {c : Nat} {busid : Bytes} {devid : UInt32} {d : Nat → Driver}

/-- C97: a Linux host has attached a device that is shared through libusb.  There is a place in the sequence of all libusb calls on
the device, at the beginning if nobody else is ever let in, from which the calls are those of the host:
* what the host's USB core is given back are the answers to the calls from there on, one by one and in order, each for the
  transfer that asked for this call;
* at a moment at which the server is between commands of the host's connection, which goes on, and nobody is using the handle,
  all calls made from there on were asked for by the host, in this order and once each;
* every transfer asked for is given back some time (so its call was made, once), unless the connection is gone, or a response did
  not fit its request. -/
theorem C97_device (hb : Behaves code env) (ha : Alongside e c busid devid d) (hD : Shares e devices dev o busid)
    (h0 : (w.user o).2.dev.2 = []) :
    ∃ log j, Exchanged e c d log ∧ (Lone e c → j = 0) ∧
      (∀ n, (∀ e ∈ log n, Modest e.2.1) → (d n).phase ≠ .broken →
        usbReturned host o dev (d n) <+: (usbAnswers (lib o) (w.user o).2.dev.1 (usbCalls (e.state n) o)).drop j ∧
        ((d n).phase = .attached → j ≤ (usbCalls (e.state n) o).length) ∧
        ((d n).phase = .attached → (e.state n).whole.fine.cfg.idle c → (e.state n).whole.fine.free o →
          (∃ x, (e.state n).whole.fine.cfg.conns c = some x ∧ x.status = .running) →
          (usbCalls (e.state n) o).drop j <+: usbWanted host o dev (d n))) ∧
      (Returns code → e.Fair →
        (∀ n t f i m k, (e.state n).whole.fine.cfg.flights t = some f → f.ev = .removeDevice i → f.code ≠ .lock .used m k) →
        Delivers e c d →
        ∀ n, (e.state n).front c = .accepted →
        ∃ m, n ≤ m ∧ (((d m).phase ≠ .importing ∧ (d m).phase ≠ .broken ∧
            usbWanted host o dev (d n) <+: (usbReturned host o dev (d m)).map (·.1)) ∨
          (∃ e ∈ log m, ¬ Modest e.2.1) ∨ Overrun (log m) (d m).heard ∨ (e.state m).whole.ended c ≠ none ∨
          ∃ y, (e.state m).whole.fine.cfg.conns c = some y ∧ (y.status = .panicked ∨ e.Faulted c m y))) := by
  have hb' := C86_behaves host (fun o => watchLib (lib o)) code env hb
  obtain ⟨f, hf, hf0, hf1⟩ := exists_told hb' e c
  have hU : Uses e o Prod.snd noAct (fun _ => []) :=
    ⟨fun n a e0 h _ => absurd h (hD.untouched n a e0), fun _ _ => rfl⟩
  obtain ⟨q, hq⟩ := exists_life (tag := id) hb' ha (host_works o) hU hD.named
    (fun n d hd call k hk ht => hD.only n d hd _ ht (by
      unfold onHandle at hk
      split at hk
      · assumption
      · cases hk)) hD.single f hf hf0 hf1
  have hx := exchanged_told hb' ha f hf
  have hthen : ∀ {n m}, n ≤ m → (q n).Then (q m) := fun h => then_le (fun n => (hq n).2) h
  -- the calls before the host had the device
  have hpre : ∀ n, ∃ cs, (objNext (usbObj (lib o)) noAct (w.user o).2 (q n).pre).dev.2 = cs ∧
      (objNext (usbObj (lib o)) noAct (w.user o).2 (q n).pre).dev.1 = cs.foldl (fun t c => c.after (lib o) t) (w.user o).2.dev.1 := by
    intro n
    obtain ⟨cs, h1, h2, _⟩ := usb_run (lib o) (q n).pre (w.user o).2
    rw [h0, List.nil_append] at h1
    exact ⟨cs, h1, h2⟩
  obtain ⟨j, hj, hj0⟩ : ∃ j, (∀ n, (q n).started = true →
      (objNext (usbObj (lib o)) noAct (w.user o).2 (q n).pre).dev.2.length = j) ∧ (Lone e c → j = 0) := by
    by_cases hs : ∃ n, (q n).started = true
    rotate_left
    · exact ⟨0, fun n h => absurd ⟨n, h⟩ hs, fun _ => rfl⟩
    · obtain ⟨n, hn⟩ := hs
      refine ⟨(objNext (usbObj (lib o)) noAct (w.user o).2 (q n).pre).dev.2.length, fun m hm => ?_, fun hlone => ?_⟩
      rotate_left
      · have hnone : ∀ c', c' ≠ c → (behindNet (hostEnv host (fun o => watchLib (lib o)) env) p devices w (f n).1).sys.conns c' = none :=
          fun c' hc' => not_accepted hb' (hf n).1.inv (hlone n c' hc')
        have := (hq n).1.alone hnone (w.user o).2
        cases hp : (q n).pre with
        | nil => simp [objNext, h0]
        | cons op ops =>
          rw [hp] at this
          cases op with
          | app a => exact nomatch a
          | urb k => simp [objAnswers] at this
      · rcases Nat.le_total n m with h | h
        · rw [((hthen h).started hn).2]
        · rw [((hthen h).started hm).2]
  -- an attached host has the device
  have hatt : ∀ n, (∀ e ∈ (f n).2.map (·.2), Modest e.2.1) → (d n).phase = .attached → (q n).started = true := by
    intro n hm hp
    obtain ⟨e0, rest', dv, h1, _, h3, _⟩ :=
      (C92_safe _ _ p devices w e c busid devid d ha _ hx n hm).2.2.2.1 hp
    cases hs : (q n).started with
    | true => rfl
    | false =>
      obtain ⟨_, _, h4, _⟩ := (hq n).1.idle hs
      cases hL : (f n).2 with
      | nil => rw [hL] at h1; cases h1
      | cons e1 L' =>
        rw [hL] at h1
        simp only [List.map_cons, List.cons.injEq] at h1
        exact absurd (by rw [h1.1]; exact h3) ((h4 e1 (by rw [hL]; simp)).1 dv)
  -- the history's calls
  have hhist : ∀ n, (q n).started = true → ∃ cp cm cl, cp.length = j ∧
      ((behindNet (hostEnv host (fun o => watchLib (lib o)) env) p devices w (f n).1).sys.shared.world.user o).2.dev.2 = cp ++ cm ++ cl ∧
      (objAnswers (usbObj (lib o)) id noAct (objNext (usbObj (lib o)) noAct (w.user o).2 (q n).pre) (q n).mid).filterMap replied <+:
        (usbAnswers (lib o) (w.user o).2.dev.1 (cp ++ cm)).drop j ∧
      ((q n).post = [] → cl = []) ∧
      ((∀ a ∈ objAnswers (usbObj (lib o)) id noAct (objNext (usbObj (lib o)) noAct (w.user o).2 (q n).pre) (q n).mid, a.2 ≠ .panic) →
        cm = (objAnswers (usbObj (lib o)) id noAct (objNext (usbObj (lib o)) noAct (w.user o).2 (q n).pre) (q n).mid).map (·.1)) := by
    intro n hs
    obtain ⟨cp, p1, p2⟩ := hpre n
    have hjn := hj n hs
    rw [p1] at hjn
    have hv := (hq n).1.value
    simp only [Phases.all, objNext_append] at hv
    generalize hs1 : objNext (usbObj (lib o)) noAct (w.user o).2 (q n).pre = s1 at *
    obtain ⟨cm, m1, m2, m3, m4⟩ := usb_run (lib o) (q n).mid s1
    obtain ⟨cl, l1, _⟩ := usb_run (lib o) (q n).post (objNext (usbObj (lib o)) noAct s1 (q n).mid)
    by_cases hpost : (q n).post = []
    · refine ⟨cp, cm, [], hjn, ?_, ?_, fun _ => rfl, m4⟩
      · rw [hv, hpost, List.append_nil, ← p1, ← m1]; rfl
      · rw [usbAnswers_append, ← hjn, ← usbAnswers_length (lib o) cp (w.user o).2.dev.1, List.drop_left, ← p2]
        exact m3
    · refine ⟨cp, cm, cl, hjn, ?_, ?_, fun h => absurd h hpost, m4⟩
      · rw [hv, l1, m1, p1]
      · rw [usbAnswers_append, ← hjn, ← usbAnswers_length (lib o) cp (w.user o).2.dev.1, List.drop_left, ← p2]
        exact m3
  have hret : ∀ n, (∀ e ∈ (f n).2.map (·.2), Modest e.2.1) → (d n).phase ≠ .broken →
      usbReturned host o dev (d n) <+: ((f n).2.map (·.2)).filterMap (loggedFor (usbRequest host o dev)) := by
    intro n hm hp
    obtain ⟨_, _, h3, _⟩ := C92_safe _ _ p devices w e c busid devid d ha _ hx n hm
    obtain ⟨_, h4⟩ := h3 hp
    obtain ⟨_, hdev⟩ := host_ids ha n
    obtain ⟨t, ht⟩ := h4
    have : usbReturned host o dev (d n) = ((d n).done.map (fun g => (g.urb.cmd devid g.seq, g.status, g.data))).filterMap
        (fun x => (usbRequest host o dev x.1).map (fun k => (k, x.2))) := by
      unfold usbReturned
      rw [hdev, List.filterMap_map]
      rfl
    refine ⟨t.filterMap (fun x => (usbRequest host o dev x.1).map (fun k => (k, x.2))), ?_⟩
    rw [this, ← List.filterMap_append, ht, List.filterMap_filterMap]
    rfl
  refine ⟨fun n => (f n).2.map (·.2), j, hx, hj0, fun n hm hp => ?_, ?_⟩
  · have hcalls := calls_behind hb (hf n).1.inv (hD.untouched n)
    cases hs : (q n).started with
    | false =>
      have hna : (d n).phase ≠ .attached := fun h => by rw [hatt n hm h] at hs; cases hs
      refine ⟨?_, fun h => absurd h hna, fun h => absurd h hna⟩
      have hdone : (d n).done = [] := by
        have hst := (host_inv ha hx n hm).1.state
        cases hph : (d n).phase with
        | importing => rw [hph] at hst; exact hst.2.2.2.1
        | refused => rw [hph] at hst; exact hst.2.2.2.2.1
        | attached => exact absurd hph hna
        | broken => exact absurd hph hp
      simp [usbReturned, hdone]
    | true =>
      obtain ⟨cp, cm, cl, g1, g2, g3, g4, g5⟩ := hhist n hs
      rw [g2] at hcalls
      obtain ⟨_, e0, rest', dv, h1, h2, ⟨last, _, h3⟩, h4⟩ := (hq n).1.busy hs
      rw [onHandle_reached] at h3 h4
      have hlog : ((f n).2.map (·.2)).filterMap (loggedFor (usbRequest host o dev)) =
          rest'.filterMap (fun e => loggedFor (usbRequest host o dev) e.2) := by
        rw [List.filterMap_map, h1, List.filterMap_cons_none]
        · rfl
        · obtain ⟨a, cm, rp, by'⟩ := e0
          dsimp only at h2
          subst h2
          simp only [Function.comp, loggedFor]
          cases cm <;> rfl
      refine ⟨?_, fun _ => ?_, fun hph hidle hfree hrun => ?_⟩
      · refine (hret n hm hp).trans ?_
        rw [hlog]
        refine (List.prefix_append _ last).trans ?_
        rw [← h3]
        exact (g3.trans (prefix_drop (usbAnswers_prefix (lib o) (List.prefix_append _ cl) _) j)).trans
          (prefix_drop (usbAnswers_prefix (lib o) hcalls _) j)
      · have := hcalls.length_le
        rw [List.append_assoc, List.length_append, g1] at this
        omega
      · obtain ⟨x, hx1, hx2⟩ := hrun
        have hex := C81_explained _ _ hb' p devices w _ _ (hf n).1.inv.whole
        have hu := hex.1 o hfree
        have hc := hex.2.2.2.1 c hidle
        rw [hx1] at hc
        obtain ⟨_, k2, _, k4, k5⟩ := h4 _ hc hx2
        have hu' : usbCalls (e.state n) o = cp ++ cm ++ cl := by
          rw [← g2]
          exact congrArg (fun v : σ × Handle (τ × List LibCall) => v.2.dev.2) hu
        rw [hu', g4 k2, List.append_nil, ← g1, List.drop_left, g5 k4, k5]
        have hsaid : usbWanted host o dev (d n) = (d n).said.filterMap (usbRequest host o dev) :=
          (said_wanted (usbRequest host o dev) (fun _ _ => rfl) (fun _ _ => rfl) ha n).symm
        rw [hsaid]
        obtain ⟨t, ht⟩ := hx.asked n
        rw [← ht, List.filterMap_append]
        refine List.IsPrefix.trans ?_ (List.prefix_append _ _)
        rw [h1]
        simp only [List.map_cons, List.map_map]
        have he0 : usbRequest host o dev e0.2.1 = none := by
          have hok := (hx.ok n e0.2 (by rw [h1]; simp)).1
          obtain ⟨a, cm, rp, by'⟩ := e0
          dsimp only at h2 hok
          subst h2
          cases cm <;> first | rfl | simp [Answers] at hok
        rw [List.filterMap_cons_none he0, List.filterMap_map]
        exact List.prefix_refl _
  · intro hr hfair hno hdel n hacc
    obtain ⟨m, hm, alt⟩ := C92_returned _ _ p devices w e c busid devid d hb' (C86_returns host _ code hr) hfair hno ha hdel _ hx n
      (.inl hacc)
    refine ⟨m, hm, ?_⟩
    rcases alt with ⟨b1, b2, b3⟩ | bad
    rotate_left
    · exact .inr bad
    refine .inl ⟨b1, b2, ?_⟩
    have hid : (d n).devid = (d m).devid := by rw [(host_ids ha n).2, (host_ids ha m).2]
    have := wanted_given (usbRequest host o dev) hid b3
    have heq : (usbReturned host o dev (d m)).map (·.1) = (givenBy (usbRequest host o dev) (d m)).map (·.1) := by
      unfold usbReturned givenBy
      rw [List.map_filterMap, List.map_filterMap]
      congr 1
      funext g
      cases usbRequest host o dev (g.urb.cmd (d m).devid g.seq) <;> rfl
    rw [heq]
    exact this

end

/-! ## A case -/

namespace Samples

/-- All interfaces of a device share a handle. -/
def sharedBy : HandlerId → Option HandlerId
  | .iface 0 => some (.iface 0)
  | .iface 1 => some (.iface 0)
  | _ => none

/-- A bulk read, an interrupt read through the other interface, an interrupt write, and a bulk read again. -/
def dealings : List (UInt32 × Urb) :=
  [(8, ⟨true, 1, 0, 4, 0, 0, 0, [0, 0, 0, 0, 0, 0, 0, 0], [], []⟩), (9, ⟨true, 3, 0, 2, 0, 0, 0, [0, 0, 0, 0, 0, 0, 0, 0], [], []⟩),
   (10, ⟨false, 2, 0, 3, 0, 0, 0, [0, 0, 0, 0, 0, 0, 0, 0], [5, 6, 7], []⟩),
   (11, ⟨true, 1, 0, 6, 0, 0, 0, [0, 0, 0, 0, 0, 0, 0, 0], [], []⟩)]

theorem dealings_wf : ∀ q ∈ dealings, WellFormed true (q.2.cmd 65538 q.1) := by
  intro q hq
  simp only [dealings, List.mem_cons, List.not_mem_nil, or_false] at hq
  rcases hq with rfl | rfl | rfl | rfl <;> exact ⟨rfl, fun _ => (by decide), rfl, rfl, rfl⟩

abbrev physLib : HandlerId → RusbLib (Nat × List LibCall) := fun _ => watchLib sampleLib
abbrev physCode : Code (Keyboard × Handle (Nat × List LibCall)) := hostCode sharedBy physLib (oneShot keyboardObj)
abbrev physEnv : Env (HandlerId → Keyboard × Handle (Nat × List LibCall)) := hostEnv sharedBy physLib (oneEnv keyboardObj)
def physWorld : World (HandlerId → Keyboard × Handle (Nat × List LibCall)) :=
  ⟨fun _ => (Keyboard.new, ⟨(0, []), false⟩), fun _ => false, fun _ => false⟩

/-- The host does all this. -/
theorem dealt : ∃ (e : MachineExec physCode physEnv dev (Machine.init physCode [devA] physWorld)) (d : Nat → Driver) (n0 n1 n2 : Nat),
    Asked e d (.arrive []) dealings n0 n1 n2 ∧ ∀ n a o e0, (e.state n).whole.fine.app a ≠ some (o, e0) := by
  have hb := C86_behaves sharedBy physLib _ _ (oneShot_behaves keyboardObj)
  obtain ⟨e, d, T, h, hA⟩ := asked (w := physWorld) (x := .arrive []) (dv := devA) (qs := dealings) hb
    (C86_returns sharedBy physLib _ (oneShot_returns keyboardObj))
    ⟨dealings_wf, by decide, by decide +kernel, by decide +kernel, by decide +kernel, by decide +kernel, by decide +kernel, by decide +kernel,
      by decide +kernel, rfl⟩
  refine ⟨e, d, _, _, _, hA, h.unused hb (fun i o v hi => ?_)⟩
  match i, hi with
  | 0, hi => cases hi
  | 1, hi => cases hi
  | 2, hi => cases hi
  | i + 3, hi => rw [polls_rest] at hi; cases hs : dealings[i]? <;> rw [hs] at hi <;> cases hi

/-- C97 on it: all hypotheses are met, and in the end the host has been given back what libusb said to the four calls. -/
example : ∃ (e : MachineExec physCode physEnv dev (Machine.init physCode [devA] physWorld)) (d : Nat → Driver) (n1 n2 : Nat),
    Behaves (oneShot keyboardObj) (oneEnv keyboardObj) ∧ Alongside e 0 busA 65538 d ∧ Shares e [devA] devA (.iface 0) busA ∧
    (physWorld.user (.iface 0)).2.dev.2 = [] ∧ Lone e 0 ∧ Returns (oneShot keyboardObj) ∧ e.Fair ∧
    (∀ n t f i m k, (e.state n).whole.fine.cfg.flights t = some f → f.ev = .removeDevice i → f.code ≠ .lock .used m k) ∧
    Delivers e 0 d ∧
    usbWanted sharedBy (.iface 0) devA (d n1) = [.readBulk 0x81 4, .readInterrupt 0x83 2, .writeInterrupt 2 [5, 6, 7], .readBulk 0x81 6] ∧
    ∀ n, n2 ≤ n → (d n).phase = .attached ∧ usbReturned sharedBy (.iface 0) devA (d n) =
      [(.readBulk 0x81 4, 0, [9, 9]), (.readInterrupt 0x83 2, 0, [7]), (.writeInterrupt 2 [5, 6, 7], 0, []),
       (.readBulk 0x81 6, 0, [9, 9, 9])] := by
  obtain ⟨e, d, n0, n1, n2, h, hu⟩ := dealt
  refine ⟨e, d, n1, n2, oneShot_behaves _, h.alongside, ⟨h.sole.named, fun n x hx _ _ _ => List.mem_singleton.mp (h.given n ▸ hx),
    h.sole.single, fun n a e0 => hu n a _ e0⟩, rfl, h.lone, oneShot_returns _, h.fair, h.noRemovals, h.delivers, ?_,
    fun n hn => ?_⟩
  · rw [h.at1]; decide +kernel
  · rw [h.at2 n hn]; decide +kernel

end Samples

end Usbip
