import Verif.Lemmas.Attended
import Verif.Lemmas.AttendedSample
import Verif.Props.Hid
/-!
# From the application to the host (C93, C94)

A process that uses the library, with an application that puts key presses into a keyboard handler, or bytes into a serial port,
and a Linux host that has attached the device: what the host's USB core is given back is what the application has put in.
-/

namespace Usbip
open Spec

section
variable {τ : Type} {code : Code τ} {env : Env (HandlerId → τ)} {p : Profile} {h : Nat}
  {devices : List Device} {dev : Device} {w : World (HandlerId → τ)}
  {e : MachineExec code env p (Machine.init code devices w)} {c : Nat} {busid : Bytes} {devid : UInt32} {d : Nat → Driver}

/-! ## C93: a keyboard -/

theorem keyboardFeeds : Feeds keyboardObj Keyboard.push unread (fun r => [keyDownReport r, codeUp])
    (fun b => if b = [] then [] else [b]) (fun ep => decide (DataIn ep)) := by
  refine ⟨fun a b => ?_, fun ep st b hg => ?_, fun ep st b hg => ?_⟩
  · simp only [unread, Keyboard.push, script, List.flatMap_append, List.append_assoc]; rfl
  · have hg : DataIn ep := of_decide_eq_true hg
    unfold keyboardObj
    rw [handleUrb_poll b ep st hg]
    cases hk : b.keyDown with
    | true =>
      refine ⟨codeUp, rfl, ?_, fun _ => ?_⟩
      · simp [unread, hk, codeUp]
      · simp [codeUp]
    | false =>
      cases hp : b.pending with
      | nil => exact ⟨[], rfl, by simp [unread, hk, hp, script], fun hn => by simp [unread, hk, hp, script] at hn⟩
      | cons r rest =>
        refine ⟨keyDownReport r, rfl, ?_, fun _ => ?_⟩
        · simp [unread, hk, hp, script, keyDownReport]
        · simp [keyDownReport]
  · unfold keyboardObj
    rw [handleUrb_other b ep st (of_decide_eq_false hg)]

theorem reports_readBack (x : Driver) : reportsRead dev h x =
    readBack (fun b => if b = [] then [] else [b]) (fun ep => decide (DataIn ep)) dev h x := by
  unfold reportsRead readBack
  generalize (givenBack dev h x).filter (fun r => decide (DataIn r.1)) = l
  induction l with
  | nil => rfl
  | cons r l ih =>
    rw [List.flatMap_cons, ← ih, List.map_cons]
    dsimp only
    by_cases hr : r.2 = []
    · rw [if_pos hr, List.filter_cons_of_neg (by simp [hr])]; rfl
    · rw [if_neg hr, List.filter_cons_of_pos (by simpa using hr)]; rfl

/-- C93: a Linux host has attached a device with a keyboard, and the application types.  The reports the host's USB core is given
are, one by one and in order, those of the keys typed (from the first one that no client before it has read): nothing is lost,
changed, repeated or out of order, at any moment and with anything else going on.  And once the host has polled often
enough after some keys were typed, it is given the reports of all these keys; unless the connection is gone, or a response did not
fit its request. -/
theorem C93_keyboard (hb : Behaves code env) (ha : Alongside e c busid devid d) {view : τ → Keyboard}
    (hS : Serves code env h view keyboardObj) {keys : Nat → List KeyReport}
    (hU : Uses e (code.obj (.iface h)) view Keyboard.push keys) (hD : Sole e devices dev h busid)
    (h0 : view (w.user (code.obj (.iface h))) = Keyboard.new) :
    ∃ log j, Exchanged e c d log ∧ (Lone e c → j = 0) ∧
      (∀ n, (∀ e ∈ log n, Modest e.2.1) → (d n).phase ≠ .broken →
        ((d n).phase = .attached → j ≤ 2 * (actsBy keys n).length) ∧
        reportsRead dev h (d n) <+: (script codeUp (actsBy keys n)).drop j) ∧
      (Returns code → e.Fair →
        (∀ n t f i m k, (e.state n).whole.fine.cfg.flights t = some f → f.ev = .removeDevice i → f.code ≠ .lock .used m k) →
        Delivers e c d →
        ∀ n0 n1, n0 ≤ n1 → (d n0).phase = .attached →
        (wanted dev h (d n0)).countP (fun ep => decide (DataIn ep)) + 2 * (actsBy keys n0).length + 2 ≤
          (wanted dev h (d n1)).countP (fun ep => decide (DataIn ep)) →
        ∃ m, n1 ≤ m ∧ ((script codeUp (actsBy keys n0)).drop j <+: reportsRead dev h (d m) ∨
          (∃ e ∈ log m, ¬ Modest e.2.1) ∨ Overrun (log m) (d m).heard ∨ (e.state m).whole.ended c ≠ none ∨
          ∃ y, (e.state m).whole.fine.cfg.conns c = some y ∧ (y.status = .panicked ∨ e.Faulted c m y))) := by
  obtain ⟨log, j, h1, h2, h3, h4⟩ := attended hb ha hS hU hD keyboardFeeds (by rw [h0]; rfl)
  have len : ∀ evs : List KeyReport, (evs.flatMap (fun r => [keyDownReport r, codeUp])).length = 2 * evs.length := by
    intro evs
    induction evs with
    | nil => rfl
    | cons r evs ih => simp only [List.flatMap_cons, List.length_append, ih, List.length_cons, List.length_nil]; omega
  refine ⟨log, j, h1, h2, fun n hm hp => ?_, fun hr hfair hno hdel n0 n1 hle hat hc => ?_⟩
  · have := h3 n hm hp
    rw [len] at this
    rw [reports_readBack]
    exact this
  · obtain ⟨m, hm, H⟩ := h4 hr hfair hno hdel n0 n1 hle hat (by rw [len]; exact hc)
    refine ⟨m, hm, ?_⟩
    rw [reports_readBack]
    exact H

theorem script_drop (evs : List KeyReport) : ∀ j, (script codeUp evs).drop j =
    if j % 2 = 0 then script codeUp (evs.drop (j / 2))
    else if j < 2 * evs.length then codeUp :: script codeUp (evs.drop ((j + 1) / 2)) else [] := by
  induction evs with
  | nil => intro j; simp [script]
  | cons r evs ih =>
    intro j
    have hs : script codeUp (r :: evs) = keyDownReport r :: codeUp :: script codeUp evs := rfl
    match j with
    | 0 => rfl
    | 1 => rw [hs]; simp; omega
    | j + 2 =>
      have hd : (script codeUp (r :: evs)).drop (j + 2) = (script codeUp evs).drop j := rfl
      rw [hd, ih, show (j + 2) % 2 = j % 2 by omega, show (j + 2) / 2 = j / 2 + 1 by omega,
        show (j + 2 + 1) / 2 = (j + 1) / 2 + 1 by omega, List.drop_succ_cons, List.drop_succ_cons, List.length_cons]
      simp only [show (j + 2 < 2 * (evs.length + 1)) ↔ j < 2 * evs.length by omega]

/-- What a host reads from part of a typed text. -/
theorem hostReads_part (text : Bytes) (evs : List KeyReport) (ht : text.map KeyReport.fromAscii = evs.map Outcome.ok) (j : Nat)
    {l : List Bytes} (hl : l <+: (script codeUp evs).drop j) :
    hostReads keyboardFields [] l = some (((text.map enter).drop ((j + 1) / 2)).take ((l.length + (1 - j % 2)) / 2)) := by
  have hup : keysDown keyboardFields codeUp = [] := by decide
  have hdrop : ∀ k, (text.drop k).map KeyReport.fromAscii = (evs.drop k).map Outcome.ok := by
    intro k; rw [List.map_drop, ht, ← List.map_drop]
  have hl' := List.prefix_iff_eq_take.mp hl
  rw [script_drop] at hl'
  by_cases hj : j % 2 = 0
  · rw [if_pos hj] at hl'
    rw [hj, show (j + 1) / 2 = j / 2 by omega, ← List.map_drop]
    have := hostReads_script (text.drop (j / 2)) (evs.drop (j / 2)) l.length (hdrop _)
    rw [← hl'] at this
    exact this
  · rw [if_neg hj] at hl'
    rw [show 1 - j % 2 = 0 by omega]
    cases l with
    | nil => simp [hostReads]
    | cons b l =>
      split at hl'
      · rw [List.length_cons, List.take_succ_cons, List.cons.injEq] at hl'
        obtain ⟨rfl, hl'⟩ := hl'
        have := hostReads_script (text.drop ((j + 1) / 2)) (evs.drop ((j + 1) / 2)) l.length (hdrop _)
        rw [← hl', List.map_drop] at this
        rw [hostReads, hup]
        exact this
      · simp at hl'

/-- C93: if the application types a text, then a host that knows HID reads that text, from the first character that no other client
has read the key press of; and all that was typed up to some moment, once it has polled often enough after that. -/
theorem C93_text (hb : Behaves code env) (ha : Alongside e c busid devid d) {view : τ → Keyboard}
    (hS : Serves code env h view keyboardObj) {keys : Nat → List KeyReport}
    (hU : Uses e (code.obj (.iface h)) view Keyboard.push keys) (hD : Sole e devices dev h busid)
    (h0 : view (w.user (code.obj (.iface h))) = Keyboard.new)
    (text : Nat → Bytes) (ht : ∀ n, (text n).map KeyReport.fromAscii = (actsBy keys n).map Outcome.ok) :
    ∃ fs log i, hidParse Keyboard.new.reportDescriptor = some fs ∧ Exchanged e c d log ∧ (Lone e c → i = 0) ∧
      (∀ n, (∀ e ∈ log n, Modest e.2.1) → (d n).phase ≠ .broken →
        ∃ read, hostReads fs [] (reportsRead dev h (d n)) = some read ∧ read <+: ((text n).map enter).drop i) ∧
      (Returns code → e.Fair →
        (∀ n t f i m k, (e.state n).whole.fine.cfg.flights t = some f → f.ev = .removeDevice i → f.code ≠ .lock .used m k) →
        Delivers e c d →
        ∀ n0 n1, n0 ≤ n1 → (d n0).phase = .attached →
        (wanted dev h (d n0)).countP (fun ep => decide (DataIn ep)) + 2 * (text n0).length + 2 ≤
          (wanted dev h (d n1)).countP (fun ep => decide (DataIn ep)) →
        ∃ m, n1 ≤ m ∧ ((∃ read, hostReads fs [] (reportsRead dev h (d m)) = some read ∧ ((text n0).map enter).drop i <+: read) ∨
          (∃ e ∈ log m, ¬ Modest e.2.1) ∨ Overrun (log m) (d m).heard ∨ (e.state m).whole.ended c ≠ none ∨
          ∃ y, (e.state m).whole.fine.cfg.conns c = some y ∧ (y.status = .panicked ∨ e.Faulted c m y))) := by
  obtain ⟨log, j, h1, h2, h3, h4⟩ := C93_keyboard hb ha hS hU hD h0
  have len : ∀ n, (text n).length = (actsBy keys n).length := fun n => by
    have := congrArg List.length (ht n)
    rwa [List.length_map, List.length_map] at this
  refine ⟨keyboardFields, log, (j + 1) / 2, keyboard_parsed, h1, fun hL => by rw [h2 hL], fun n hm hp => ?_,
    fun hr hfair hno hdel n0 n1 hle hat hc => ?_⟩
  · exact ⟨_, hostReads_part _ _ (ht n) j (h3 n hm hp).2, List.take_prefix _ _⟩
  · obtain ⟨m, hm, H⟩ := h4 hr hfair hno hdel n0 n1 hle hat (by rw [← len]; exact hc)
    refine ⟨m, hm, ?_⟩
    rcases H with H | H
    rotate_left
    · exact .inr H
    by_cases hmod : ∀ e ∈ log m, Modest e.2.1
    rotate_left
    · simp only [Classical.not_forall] at hmod
      obtain ⟨e, he, hn⟩ := hmod
      exact .inr (.inl ⟨e, he, hn⟩)
    by_cases hbr : (d m).phase = .broken
    · exact .inr (.inr (.inl ((C92_safe code env p devices w e c busid devid d ha log h1 m hmod).1.mp hbr)))
    refine .inl ⟨_, hostReads_part _ _ (ht m) j (h3 m hmod hbr).2, ?_⟩
    have hlen := H.length_le
    have hsl : ∀ evs : List KeyReport, (script codeUp evs).length = 2 * evs.length := by
      intro evs
      induction evs with
      | nil => rfl
      | cons r evs ih =>
        simp only [script, List.flatMap_cons, List.length_append, List.length_cons, List.length_nil] at ih ⊢
        omega
    rw [List.length_drop, hsl] at hlen
    -- the text grows
    have hpre : (text n0).map enter <+: (text m).map enter := by
      have hk : actsBy keys n0 <+: actsBy keys m := actsBy_mono (show n0 ≤ m by omega)
      obtain ⟨t, htk⟩ := hk
      have h5 := ht m
      rw [← htk, List.map_append, ← ht n0] at h5
      obtain ⟨a, b, h6, h7, h8⟩ := List.map_eq_append_iff.mp h5
      rw [h6]
      have whole : ∀ x : Bytes, x.map KeyReport.fromAscii = (actsBy keys n0).map Outcome.ok →
          hostReads keyboardFields [] (script codeUp (actsBy keys n0)) = some (x.map enter) := by
        intro x hx
        have hxl := congrArg List.length hx
        rw [List.length_map, List.length_map] at hxl
        have := hostReads_script x (actsBy keys n0) (script codeUp (actsBy keys n0)).length hx
        rw [List.take_length, hsl, List.take_of_length_le (by rw [List.length_map]; omega)] at this
        exact this
      have : a.map enter = (text n0).map enter := by
        have q1 := whole a (by rw [h7, ht n0])
        rw [whole _ (ht n0)] at q1
        exact (Option.some.inj q1).symm
      rw [List.map_append, this]
      exact List.prefix_append _ _
    obtain ⟨t, htx⟩ := hpre
    rw [← htx, List.drop_append, List.take_append]
    rw [List.take_of_length_le]
    · exact List.prefix_append _ _
    rw [List.length_drop, List.length_map, len]
    omega

end

namespace Samples

/-- A case for C93: the application types an a after the host has attached the device, the host polls four times after that, and
all that C93 asks for holds; the host has the two reports in the end. -/
example : ∃ (e : MachineExec (oneShot keyboardObj) (oneEnv keyboardObj) dev
      (Machine.init (oneShot keyboardObj) [devA] (oneWorld Keyboard.new))) (d : Nat → Driver) (keys : Nat → List KeyReport) (n0 n1 : Nat),
    Alongside e 0 busA 65538 d ∧ Behaves (oneShot keyboardObj) (oneEnv keyboardObj) ∧
    Serves (oneShot keyboardObj) (oneEnv keyboardObj) 0 id keyboardObj ∧
    Uses e ((oneShot keyboardObj).obj (.iface 0)) id Keyboard.push keys ∧ Sole e [devA] devA 0 busA ∧
    (oneWorld Keyboard.new).user ((oneShot keyboardObj).obj (.iface 0)) = Keyboard.new ∧
    Returns (oneShot keyboardObj) ∧ e.Fair ∧
    (∀ n t f i m k, (e.state n).whole.fine.cfg.flights t = some f → f.ev = .removeDevice i → f.code ≠ .lock .used m k) ∧
    Delivers e 0 d ∧ Lone e 0 ∧ n0 ≤ n1 ∧ (d n0).phase = .attached ∧ actsBy keys n0 = [letterA] ∧
    (wanted devA 0 (d n0)).countP (fun ep => decide (DataIn ep)) + 2 * (actsBy keys n0).length + 2 ≤
      (wanted devA 0 (d n1)).countP (fun ep => decide (DataIn ep)) ∧
    ∃ n2, ∀ n, n2 ≤ n → reportsRead devA 0 (d n) = [keyDownReport letterA, codeUp] := by
  obtain ⟨e, d, keys, n0, n1, n2, h⟩ := typedOnce
  refine ⟨e, d, keys, n0, n1, h.alongside, oneShot_behaves _, oneShot_serves _ _, h.uses, h.sole, rfl, oneShot_returns _, h.fair,
    h.noRemovals, h.delivers, h.lone, h.le, ?_, h.acted, ?_, n2, fun n hn => ?_⟩
  · rw [h.at0]; decide +kernel
  · rw [h.at0, h.at1, h.acted]; decide +kernel
  · rw [h.at2 n hn]; decide +kernel

/-- The text typed, and what a host makes of the reports. -/
example : [(97 : UInt8)].map KeyReport.fromAscii = [letterA].map Outcome.ok ∧
    (hidParse Keyboard.new.reportDescriptor).map (fun fs => hostReads fs [] [keyDownReport letterA, codeUp]) = some (some [enter 97]) := by
  decide +kernel

end Samples

section
variable {τ : Type} {code : Code τ} {env : Env (HandlerId → τ)} {p : Profile} {h : Nat}
  {devices : List Device} {dev : Device} {w : World (HandlerId → τ)}
  {e : MachineExec code env p (Machine.init code devices w)} {c : Nat} {busid : Bytes} {devid : UInt32} {d : Nat → Driver}

/-! ## C94: a serial port -/

/-- Endpoints through which the serial port gives away what is written. -/
def serialIn (ep : Endpoint) : Bool := ep.attributes.toNat ≠ 3 ∧ 128 ≤ ep.address.toNat

theorem serialFeeds : Feeds serialObj Cdc.write Cdc.txBuffer id id serialIn := by
  have hg : ∀ ep : Endpoint, serialIn ep = true ↔ ep.attributes ≠ EndpointAttributes.interrupt.toU8 ∧ ep.direction = .in := by
    intro ep
    unfold serialIn
    rw [decide_eq_true_iff, direction_in]
    refine and_congr (not_congr ⟨fun h => u8_ext (by rw [h]; rfl), fun h => by rw [h]; rfl⟩) Iff.rfl
  refine ⟨fun a b => rfl, fun ep st b h => ?_, fun ep st b h => ?_⟩
  · obtain ⟨h1, h2⟩ := (hg ep).mp h
    refine ⟨b.txBuffer, ?_, ?_, id⟩
    · simp only [serialObj, Cdc.handleUrb, if_neg h1, h2]
    · simp only [serialObj, Cdc.handleUrb, if_neg h1, h2, id, List.append_nil]
  · have : ¬ (ep.attributes ≠ EndpointAttributes.interrupt.toU8 ∧ ep.direction = .in) := fun hn => by
      rw [(hg ep).mpr hn] at h; cases h
    unfold serialObj Cdc.handleUrb
    by_cases h1 : ep.attributes = EndpointAttributes.interrupt.toU8
    · rw [if_pos h1]
    · rw [if_neg h1]
      cases hd : ep.direction with
      | out => rfl
      | «in» => exact absurd ⟨h1, hd⟩ this

theorem given_wanted (ha : Alongside e c busid devid d) {log : Nat → List Handled} (hx : Exchanged e c d log) (n : Nat)
    (hm : ∀ e ∈ log n, Modest e.2.1) (hp : (d n).phase ≠ .broken) : (givenBack dev h (d n)).map (·.1) <+: wanted dev h (d n) := by
  have h1 := ((C92_safe code env p devices w e c busid devid d ha log hx n hm).2.2.1 hp).1
  have : (givenBack dev h (d n)).map (·.1) =
      ((d n).done.map (fun g => (g.seq, g.urb))).filterMap (fun g => reached dev h (g.2.cmd (d n).devid g.1)) := by
    unfold givenBack
    rw [List.map_filterMap, List.filterMap_map]
    congr 1
    funext g
    dsimp only [Function.comp]
    cases reached dev h (g.urb.cmd (d n).devid g.seq) <;> rfl
  rw [this]
  unfold wanted
  rw [← h1, List.filterMap_append]
  exact List.prefix_append _ _

theorem serial_told (hb : Behaves code env) (ha : Alongside e c busid devid d) {view : τ → Cdc}
    (hS : Serves code env h view serialObj) {writes : Nat → List Bytes}
    (hU : Uses e (code.obj (.iface h)) view Cdc.write writes) (hD : Sole e devices dev h busid)
    (h0 : view (w.user (code.obj (.iface h))) = Cdc.new)
    (hep : ∀ n, ∀ ep ∈ wanted dev h (d n), ep.attributes.toNat = 2 ∨ ep.attributes.toNat = 3 ∨ ep.address.toNat < 128)
    (f : Nat → List (MachineLabel (HandlerId → τ)) × List (Bytes × Handled))
    (hf : ∀ n, Told e c n (f n).1 (f n).2 ∧ (f n).2 <+: (f (n + 1)).2) (hf0 : (f 0).1 = [])
    (hf1 : ∀ n, (f (n + 1)).1 = (f n).1 ++ (e.label n).toList) :
    ∃ j, (Lone e c → j = 0) ∧
      (∀ n, (∀ e ∈ (f n).2.map (·.2), Modest e.2.1) → (d n).phase ≠ .broken →
        ((d n).phase = .attached → j ≤ (actsBy writes n).flatten.length) ∧
        bytesRead dev h (d n) <+: (actsBy writes n).flatten.drop j) ∧
      (Returns code → e.Fair →
        (∀ n t f i m k, (e.state n).whole.fine.cfg.flights t = some f → f.ev = .removeDevice i → f.code ≠ .lock .used m k) →
        Delivers e c d →
        ∀ n0 n1, n0 ≤ n1 → (d n0).phase = .attached →
        (wanted dev h (d n0)).countP (fun ep => decide (BulkIn ep)) + (actsBy writes n0).flatten.length + 2 ≤
          (wanted dev h (d n1)).countP (fun ep => decide (BulkIn ep)) →
        ∃ m, n1 ≤ m ∧ ((actsBy writes n0).flatten.drop j <+: bytesRead dev h (d m) ∨
          (∃ e ∈ (f m).2.map (·.2), ¬ Modest e.2.1) ∨ Overrun ((f m).2.map (·.2)) (d m).heard ∨ (e.state m).whole.ended c ≠ none ∨
          ∃ y, (e.state m).whole.fine.cfg.conns c = some y ∧ (y.status = .panicked ∨ e.Faulted c m y))) := by
  have h1 := exchanged_told hb ha f hf
  obtain ⟨j, h2, h3, h4⟩ := attended_told hb ha hS hU hD serialFeeds (by rw [h0]; rfl) f hf hf0 hf1
  simp only [List.flatMap_id] at h3 h4
  have same : ∀ n, ∀ ep ∈ wanted dev h (d n), serialIn ep = decide (BulkIn ep) := by
    intro n ep hw
    have := hep n ep hw
    refine Bool.eq_iff_iff.mpr ?_
    rw [decide_eq_true_iff, serialIn, decide_eq_true_iff]
    unfold BulkIn
    omega
  have count : ∀ n, (wanted dev h (d n)).countP serialIn = (wanted dev h (d n)).countP (fun ep => decide (BulkIn ep)) :=
    fun n => List.countP_congr (fun ep hw => by rw [same n ep hw])
  have read : ∀ n, (∀ e ∈ (f n).2.map (·.2), Modest e.2.1) → (d n).phase ≠ .broken →
      readBack id serialIn dev h (d n) = bytesRead dev h (d n) := by
    intro n hm hp
    unfold readBack bytesRead
    have hf : (givenBack dev h (d n)).filter (fun r => serialIn r.1) = (givenBack dev h (d n)).filter (fun r => decide (BulkIn r.1)) := by
      refine List.filter_congr (fun r hr => same n r.1 ?_)
      exact (given_wanted ha h1 n hm hp).subset (List.mem_map_of_mem hr)
    rw [hf]
    rfl
  refine ⟨j, h2, fun n hm hp => ?_, fun hr hfair hno hdel n0 n1 hle hat hc => ?_⟩
  · rw [← read n hm hp]; exact h3 n hm hp
  · obtain ⟨m, hm, H⟩ := h4 hr hfair hno hdel n0 n1 hle hat (by rw [count, count]; exact hc)
    refine ⟨m, hm, ?_⟩
    rcases H with H | H
    rotate_left
    · exact .inr H
    by_cases hmod : ∀ e ∈ (f m).2.map (·.2), Modest e.2.1
    rotate_left
    · simp only [Classical.not_forall] at hmod
      obtain ⟨e, he, hn⟩ := hmod
      exact .inr (.inl ⟨e, he, hn⟩)
    by_cases hbr : (d m).phase = .broken
    · exact .inr (.inr (.inl ((C92_safe code env p devices w e c busid devid d ha _ h1 m hmod).1.mp hbr)))
    rw [← read m hmod hbr]
    exact .inl H

/-- C94: a Linux host has attached a device with a serial port, and the application writes.  The bytes the host's USB core is
given by bulk IN transfers are, in order, those written (from the first one that no client before it has read): nothing is lost,
changed, repeated or out of order, at any moment and with anything else going on.  And once the host has asked often enough
after something was written, it is given all of it; unless the connection is gone, or a response did not fit its request (the
port sends all it has, however little was asked for).  Transfers with the port are bulk, interrupt, or OUT (`C40_fails`). -/
theorem C94_serial (hb : Behaves code env) (ha : Alongside e c busid devid d) {view : τ → Cdc}
    (hS : Serves code env h view serialObj) {writes : Nat → List Bytes}
    (hU : Uses e (code.obj (.iface h)) view Cdc.write writes) (hD : Sole e devices dev h busid)
    (h0 : view (w.user (code.obj (.iface h))) = Cdc.new)
    (hep : ∀ n, ∀ ep ∈ wanted dev h (d n), ep.attributes.toNat = 2 ∨ ep.attributes.toNat = 3 ∨ ep.address.toNat < 128) :
    ∃ log j, Exchanged e c d log ∧ (Lone e c → j = 0) ∧
      (∀ n, (∀ e ∈ log n, Modest e.2.1) → (d n).phase ≠ .broken →
        ((d n).phase = .attached → j ≤ (actsBy writes n).flatten.length) ∧
        bytesRead dev h (d n) <+: (actsBy writes n).flatten.drop j) ∧
      (Returns code → e.Fair →
        (∀ n t f i m k, (e.state n).whole.fine.cfg.flights t = some f → f.ev = .removeDevice i → f.code ≠ .lock .used m k) →
        Delivers e c d →
        ∀ n0 n1, n0 ≤ n1 → (d n0).phase = .attached →
        (wanted dev h (d n0)).countP (fun ep => decide (BulkIn ep)) + (actsBy writes n0).flatten.length + 2 ≤
          (wanted dev h (d n1)).countP (fun ep => decide (BulkIn ep)) →
        ∃ m, n1 ≤ m ∧ ((actsBy writes n0).flatten.drop j <+: bytesRead dev h (d m) ∨
          (∃ e ∈ log m, ¬ Modest e.2.1) ∨ Overrun (log m) (d m).heard ∨ (e.state m).whole.ended c ≠ none ∨
          ∃ y, (e.state m).whole.fine.cfg.conns c = some y ∧ (y.status = .panicked ∨ e.Faulted c m y))) := by
  obtain ⟨f, hf, hf0, hf1⟩ := exists_told hb e c
  obtain ⟨j, h⟩ := serial_told hb ha hS hU hD h0 hep f hf hf0 hf1
  exact ⟨_, j, exchanged_told hb ha f hf, h⟩

end

namespace Samples

/-- A case for C94: the application writes two bytes after the host has attached the device, the host asks four times after that,
and all that C94 asks for holds; the host has the two bytes in the end. -/
example : ∃ (e : MachineExec (oneShot serialObj) (oneEnv serialObj) dev
      (Machine.init (oneShot serialObj) [devA] (oneWorld Cdc.new))) (d : Nat → Driver) (writes : Nat → List Bytes) (n0 n1 : Nat),
    Alongside e 0 busA 65538 d ∧ Behaves (oneShot serialObj) (oneEnv serialObj) ∧
    Serves (oneShot serialObj) (oneEnv serialObj) 0 id serialObj ∧
    Uses e ((oneShot serialObj).obj (.iface 0)) id Cdc.write writes ∧ Sole e [devA] devA 0 busA ∧
    (oneWorld Cdc.new).user ((oneShot serialObj).obj (.iface 0)) = Cdc.new ∧
    (∀ n, ∀ ep ∈ wanted devA 0 (d n), ep.attributes.toNat = 2 ∨ ep.attributes.toNat = 3 ∨ ep.address.toNat < 128) ∧
    Returns (oneShot serialObj) ∧ e.Fair ∧
    (∀ n t f i m k, (e.state n).whole.fine.cfg.flights t = some f → f.ev = .removeDevice i → f.code ≠ .lock .used m k) ∧
    Delivers e 0 d ∧ Lone e 0 ∧ n0 ≤ n1 ∧ (d n0).phase = .attached ∧ actsBy writes n0 = [[1, 2]] ∧
    (wanted devA 0 (d n0)).countP (fun ep => decide (BulkIn ep)) + (actsBy writes n0).flatten.length + 2 ≤
      (wanted devA 0 (d n1)).countP (fun ep => decide (BulkIn ep)) ∧
    ∃ n2, ∀ n, n2 ≤ n → bytesRead devA 0 (d n) = [1, 2] := by
  obtain ⟨e, d, writes, n0, n1, n2, h⟩ := wroteOnce
  refine ⟨e, d, writes, n0, n1, h.alongside, oneShot_behaves _, oneShot_serves _ _, h.uses, h.sole, rfl, fun n => ?_, oneShot_returns _,
    h.fair, h.noRemovals, h.delivers, h.lone, h.le, ?_, h.acted, ?_, n2, fun n hn => ?_⟩
  · rcases h.always n with hd | hd | hd | hd <;> rw [hd] <;> decide +kernel
  · rw [h.at0]; decide +kernel
  · rw [h.at0, h.at1, h.acted]; decide +kernel
  · rw [h.at2 n hn]; decide +kernel

end Samples
open Samples

/-- C94 needs the exception for responses that do not fit: the application writes two bytes after the host has attached the
device, and the host asks for one byte, often enough.  Everything C94 asks for holds; but
the server answers with both bytes, the host takes that for a broken connection, and is never
given anything. -/
theorem C94_fails_short : ∃ (e : MachineExec (oneShot serialObj) (oneEnv serialObj) dev
      (Machine.init (oneShot serialObj) [devA] (oneWorld Cdc.new))) (d : Nat → Driver) (writes : Nat → List Bytes) (n0 n1 : Nat),
    Alongside e 0 busA 65538 d ∧ Behaves (oneShot serialObj) (oneEnv serialObj) ∧
    Serves (oneShot serialObj) (oneEnv serialObj) 0 id serialObj ∧
    Uses e ((oneShot serialObj).obj (.iface 0)) id Cdc.write writes ∧ Sole e [devA] devA 0 busA ∧
    (oneWorld Cdc.new).user ((oneShot serialObj).obj (.iface 0)) = Cdc.new ∧
    (∀ n, ∀ ep ∈ wanted devA 0 (d n), ep.attributes.toNat = 2 ∨ ep.attributes.toNat = 3 ∨ ep.address.toNat < 128) ∧
    Returns (oneShot serialObj) ∧ e.Fair ∧
    (∀ n t f i m k, (e.state n).whole.fine.cfg.flights t = some f → f.ev = .removeDevice i → f.code ≠ .lock .used m k) ∧
    Delivers e 0 d ∧ Lone e 0 ∧ n0 ≤ n1 ∧ (d n0).phase = .attached ∧ actsBy writes n0 = [[1, 2]] ∧
    (wanted devA 0 (d n0)).countP (fun ep => decide (BulkIn ep)) + (actsBy writes n0).flatten.length + 2 ≤
      (wanted devA 0 (d n1)).countP (fun ep => decide (BulkIn ep)) ∧
    (∀ n, bytesRead devA 0 (d n) = []) ∧ ∃ n2, ∀ n, n2 ≤ n → (d n).phase = .broken := by
  obtain ⟨e, d, writes, n0, n1, n2, h⟩ := wroteMore
  refine ⟨e, d, writes, n0, n1, h.alongside, oneShot_behaves _, oneShot_serves _ _, h.uses, h.sole, rfl, fun n => ?_, oneShot_returns _,
    h.fair, h.noRemovals, h.delivers, h.lone, h.le, ?_, h.acted, ?_, fun n => ?_, n2, fun n hn => ?_⟩
  · rcases h.always n with hd | hd | hd | hd <;> rw [hd] <;> decide +kernel
  · rw [h.at0]; decide +kernel
  · rw [h.at0, h.at1, h.acted]; decide +kernel
  · rcases h.always n with hd | hd | hd | hd <;> rw [hd] <;> decide +kernel
  · rw [h.at2 n hn]; decide +kernel

end Usbip
