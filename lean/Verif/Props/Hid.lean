import Verif.Spec.Hid
import Verif.Props.Programs
/-!
# C87: a host that knows HID reads what is typed
-/

namespace Usbip
open Spec Samples

/-! ## Reading the reports -/

theorem reportBits_tail (b : UInt8) (rest : Bytes) (off n : Nat) (h : 8 ≤ off) :
    reportBits (b :: rest) off n = reportBits rest (off - 8) n := by
  unfold reportBits
  have h1 : leNat (b :: rest) = b.toNat + 256 * leNat rest := rfl
  have h2 : 2 ^ off = 256 * 2 ^ (off - 8) := by
    rw [show (256 : Nat) = 2 ^ 8 from rfl, ← Nat.pow_add]; congr 1; omega
  rw [h1, h2, ← Nat.div_div_eq_div_mul]
  have := u8_lt b
  congr 2
  omega

theorem reportBits_head (b : UInt8) (rest : Bytes) (off n : Nat) (h : off + n ≤ 8) :
    reportBits (b :: rest) off n = b.toNat / 2 ^ off % 2 ^ n := by
  unfold reportBits
  have h1 : leNat (b :: rest) = b.toNat + 256 * leNat rest := rfl
  have h2 : 256 * leNat rest = 2 ^ off * (2 ^ n * (2 ^ (8 - off - n) * leNat rest)) := by
    rw [← Nat.mul_assoc, ← Nat.mul_assoc, ← Nat.pow_add, ← Nat.pow_add]
    congr 1
    rw [show off + n + (8 - off - n) = 8 by omega]
  rw [h1, h2, Nat.add_mul_div_left _ _ (Nat.two_pow_pos off), Nat.add_mul_mod_self_left]

theorem filterMap_congr' {α β} {f g : α → Option β} {l : List α} (h : ∀ x ∈ l, f x = g x) :
    l.filterMap f = l.filterMap g := by
  induction l with
  | nil => rfl
  | cons a l ih =>
    simp only [List.filterMap_cons, h a List.mem_cons_self, ih (fun x hx => h x (List.mem_cons_of_mem _ hx))]

/-- What the keyboard's own report descriptor says: eight modifier keys, one bit each; a byte that means nothing;
the numbers of up to six keys. -/
def keyboardFields : List HidField :=
  [⟨false, true, 7, 0xE0, 0xE7, 0, 1, 1, 8⟩, ⟨true, false, 7, 0, 0, 0, 1, 8, 1⟩, ⟨false, false, 7, 0, 0x65, 0, 0x65, 8, 6⟩]

theorem keyboard_parsed : hidParse Keyboard.new.reportDescriptor = some keyboardFields := by decide

/-- The usages of the keys an event holds down (numbers that are no keys of this keyboard, 1 to 3 and above 0x65, are
not counted). -/
def heldBy (r : KeyReport) : List Nat :=
  (List.range 8).filterMap (fun i => if r.modifier.toNat / 2 ^ i % 2 = 1 then some (0xE0 + i) else none) ++
  (r.keys.toList.map UInt8.toNat).filter (fun k => 4 ≤ k ∧ k ≤ 0x65)

theorem keysDown_press (r : KeyReport) : keysDown keyboardFields (keyDownReport r) = heldBy r := by
  unfold heldBy
  obtain ⟨m, ⟨⟨ks⟩, hk⟩⟩ := r
  obtain ⟨a, b, c, d, e, f, rfl⟩ : ∃ a b c d e f, ks = [a, b, c, d, e, f] := by
    match ks, hk with
    | [a, b, c, d, e, f], _ => exact ⟨a, b, c, d, e, f, rfl⟩
  have hrep : keyDownReport ⟨m, ⟨⟨[a, b, c, d, e, f]⟩, hk⟩⟩ = [m, 0, a, b, c, d, e, f] := rfl
  have hks : (⟨⟨[a, b, c, d, e, f]⟩, hk⟩ : Vector UInt8 6).toList = [a, b, c, d, e, f] := rfl
  rw [hrep]
  dsimp only
  rw [hks]
  unfold keysDown keyboardFields
  simp only [activeUsages, List.append_nil, List.filterMap_append]
  congr 1
  · simp only [HidField.active, Bool.false_eq_true, if_false, if_true, List.filterMap_filterMap]
    refine filterMap_congr' fun i hi => ?_
    have hi := List.mem_range.mp hi
    rw [reportBits_head _ _ _ _ (by omega)]
    simp only [Nat.zero_add, Nat.mul_one, Nat.pow_one]
    have := Nat.mod_two_eq_zero_or_one (m.toNat / 2 ^ i)
    rcases this with h | h
    · simp [h]
    · simp [h]; omega
  · simp only [HidField.active, if_true, List.filterMap_nil, List.nil_append, Bool.false_eq_true, if_false]
    have h8 : ∀ x : UInt8, x.toNat / 2 ^ 0 % 2 ^ 8 = x.toNat := fun x => by have := u8_lt x; omega
    have hl : ∀ ks : List UInt8, (ks.filterMap (fun x => if 0 ≤ x.toNat ∧ x.toNat ≤ 101 then some ((7 : Nat), 0 + (x.toNat - 0)) else none)).filterMap
        (fun u => if u.1 = 7 ∧ 4 ≤ u.2 then some u.2 else none)
        = (ks.map UInt8.toNat).filter (fun k => 4 ≤ k ∧ k ≤ 0x65) := by
      intro ks
      induction ks with
      | nil => rfl
      | cons x ks ih =>
        by_cases h1 : x.toNat ≤ 101
        · by_cases h2 : 4 ≤ x.toNat
          · simpa [List.filterMap_cons, h1, h2] using ih
          · simpa [List.filterMap_cons, h1, h2] using ih
        · simpa [List.filterMap_cons, h1] using ih
    rw [← hl]
    congr 1
    simp only [show List.range 6 = [0, 1, 2, 3, 4, 5] from rfl, List.filterMap_cons, List.filterMap_nil]
    simp [reportBits_tail, reportBits_head, Nat.mod_eq_of_lt (u8_lt _)]

theorem script_at (up : Bytes) (evs : List KeyReport) : ∀ n b, (script up evs)[n]? = some b →
    ∃ r, evs[n / 2]? = some r ∧ b = if n % 2 = 0 then keyDownReport r else up := by
  induction evs with
  | nil => intro n b h; simp [script] at h
  | cons r evs ih =>
    intro n b h
    have hs : script up (r :: evs) = keyDownReport r :: up :: script up evs := by simp [script]
    rw [hs] at h
    match n with
    | 0 =>
      simp only [List.getElem?_cons_zero, Option.some.injEq] at h
      exact ⟨r, rfl, h.symm⟩
    | 1 =>
      simp only [List.getElem?_cons_succ, List.getElem?_cons_zero, Option.some.injEq] at h
      exact ⟨r, rfl, h.symm⟩
    | n + 2 =>
      simp only [List.getElem?_cons_succ] at h
      obtain ⟨q, h1, h2⟩ := ih n b h
      refine ⟨q, ?_, ?_⟩
      · rw [show (n + 2) / 2 = n / 2 + 1 by omega]; exact h1
      · rw [show (n + 2) % 2 = n % 2 by omega]; exact h2

/-- C87: of the reports that a new keyboard delivers, whatever is queued and requested in whatever order, the first,
third, fifth ... are read by a host, according to the report descriptor, as exactly the modifiers and the keys of the
first, second, third ... event. -/
theorem C87_keys (ops : List KOp) (n : Nat) (b : Bytes)
    (h : (((typeAndPoll Keyboard.new ops).1.map HRes.bytes).filter (fun b => !b.isEmpty))[2 * n]? = some b) :
    ∃ fs r, hidParse Keyboard.new.reportDescriptor = some fs ∧ (queued ops)[n]? = some r ∧
      keysDown fs b = heldBy r := by
  obtain ⟨m, hm⟩ := C36_fifo ops
  rw [hm, List.getElem?_take] at h
  split at h
  · obtain ⟨r, hr, hb⟩ := script_at _ _ _ b h
    rw [if_pos (by omega)] at hb
    refine ⟨_, r, keyboard_parsed, ?_, hb ▸ keysDown_press r⟩
    rw [← hr]; congr 1; omega
  · simp at h

/-- C87: the reports between them, six bytes instead of eight, are read as no key, by a host that takes what is missing
as zero. -/
theorem C87_release (ops : List KOp) (n : Nat) (b : Bytes)
    (h : (((typeAndPoll Keyboard.new ops).1.map HRes.bytes).filter (fun b => !b.isEmpty))[2 * n + 1]? = some b) :
    ∃ fs, hidParse Keyboard.new.reportDescriptor = some fs ∧ keysDown fs b = [] := by
  obtain ⟨m, hm⟩ := C36_fifo ops
  rw [hm, List.getElem?_take] at h
  split at h
  · obtain ⟨r, hr, hb⟩ := script_at _ _ _ b h
    rw [if_neg (by omega)] at hb
    exact ⟨_, keyboard_parsed, hb ▸ (by decide)⟩
  · simp at h

/-- Two events, polled four times: the reports are read as the keys of the first, none, those of the second, none. -/
example : (((typeAndPoll Keyboard.new [.push ⟨2, #v[4, 0, 0, 0, 0, 0]⟩, .push ⟨0, #v[5, 6, 0, 0, 0, 0]⟩, poll, poll, poll, poll]).1.map
    HRes.bytes).filter (fun b => !b.isEmpty)).map (keysDown keyboardFields) = [[0xE1, 4], [], [5, 6], []] := by decide

/-! ## Text -/

/-- The character a key press of `a` is read as: carriage return and line feed are the same key. -/
def enter (a : UInt8) : UInt8 := if a = 13 then 10 else a

/-- A host reads the report of a character as that character. -/
def readsAs (n : Nat) : Bool :=
  match KeyReport.fromAscii (UInt8.ofNat n) with
  | .ok r => (keysDown keyboardFields (keyDownReport r)).map keyChar == [some (enter (UInt8.ofNat n))]
  | _ => true

theorem readsAs_all : ∀ n < 256, readsAs n = true := by decide +kernel

theorem char_key (a : UInt8) (r : KeyReport) (h : KeyReport.fromAscii a = .ok r) :
    ∃ u, keysDown keyboardFields (keyDownReport r) = [u] ∧ keyChar u = some (enter a) := by
  have := readsAs_all a.toNat (u8_lt a)
  unfold readsAs at this
  rw [ofNat_toNat8, h] at this
  simp only [beq_iff_eq] at this
  obtain ⟨u, e, h1⟩ := List.map_eq_singleton_iff.mp this
  exact ⟨u, e, h1⟩

theorem hostReads_script (text : Bytes) : ∀ (evs : List KeyReport) (m : Nat),
    text.map KeyReport.fromAscii = evs.map Outcome.ok →
    hostReads keyboardFields [] ((script codeUp evs).take m) = some ((text.map enter).take ((m + 1) / 2)) := by
  have hup : keysDown keyboardFields codeUp = [] := by decide
  induction text with
  | nil =>
    intro evs m h
    cases evs with
    | nil => simp [script, hostReads]
    | cons e evs => simp at h
  | cons a text ih =>
    intro evs m h
    cases evs with
    | nil => simp at h
    | cons e evs =>
      simp only [List.map_cons, List.cons.injEq] at h
      obtain ⟨u, hu, hc⟩ := char_key a e h.1
      have hs : script codeUp (e :: evs) = keyDownReport e :: codeUp :: script codeUp evs := rfl
      rw [hs]
      match m with
      | 0 => simp [hostReads]
      | 1 => simp [hostReads, hu, hc]
      | m + 2 =>
        have := ih evs m h.2
        rw [List.take_succ_cons, List.take_succ_cons, show (m + 2 + 1) / 2 = (m + 1) / 2 + 1 by omega]
        simp [hostReads, hu, hc, hup, this]

/-- C87: if the application types a text (characters that `from_ascii` knows), then what the clients of the keyboard
receive, read by a host that knows HID, is the beginning of that text (with Enter for carriage return and line feed): one
character for every second report.  Any server, any other handlers, any clients, any history; the polls have to be
made in IN direction and their replies sent. -/
theorem C87_text {σ} (env : Env σ) (h : Nat) (p : Profile) (devices : List Device)
    (w : World (σ × Keyboard)) (hw : w.user.2 = Keyboard.new) (es : List (HostedEvent σ KeyReport))
    (hall : ∀ r ∈ keyboardReplies env h p (Sys.init devices w) es, r.direction = 1 ∧ r.write = .full)
    (text : Bytes) (ht : text.map KeyReport.fromAscii = (typed es).map Outcome.ok) :
    let reports := ((keyboardReplies env h p (Sys.init devices w) es).map Sent.data).filter (fun b => !b.isEmpty)
    ∃ fs, hidParse Keyboard.new.reportDescriptor = some fs ∧
      hostReads fs [] reports = some ((text.map enter).take ((reports.length + 1) / 2)) := by
  intro reports
  obtain ⟨m, hm⟩ := C58_fifo env h p devices w hw es hall
  refine ⟨_, keyboard_parsed, ?_⟩
  have hr : reports = (script codeUp (typed es)).take reports.length := by
    have : reports = (script codeUp (typed es)).take m := hm
    rw [this, List.length_take, List.take_eq_take_iff]
    omega
  have := hostReads_script text (typed es) reports.length ht
  rw [← hr] at this
  exact this

/-- C87: ... and when the last thing that has happened to the keyboard is a poll with an empty reply, the host has read the whole text. -/
theorem C87_whole_text {σ} (env : Env σ) (h : Nat) (p : Profile) (devices : List Device)
    (w : World (σ × Keyboard)) (hw : w.user.2 = Keyboard.new) (es : List (HostedEvent σ KeyReport))
    (hall : ∀ r ∈ keyboardReplies env h p (Sys.init devices w) es, r.direction = 1 ∧ r.write = .full)
    (text : Bytes) (ht : text.map KeyReport.fromAscii = (typed es).map Outcome.ok)
    (ops : List KOp) (ep : Endpoint) (st : SetupPacket) (hep : DataIn ep)
    (hops : keyboardOps env h p (Sys.init devices w) es = ops ++ [.urb ep st])
    (r : Sent) (hlast : (keyboardReplies env h p (Sys.init devices w) es).getLast? = some r) (hr : r.data = []) :
    let reports := ((keyboardReplies env h p (Sys.init devices w) es).map Sent.data).filter (fun b => !b.isEmpty)
    ∃ fs, hidParse Keyboard.new.reportDescriptor = some fs ∧ hostReads fs [] reports = some (text.map enter) := by
  intro reports
  obtain ⟨fs, hfs, h1⟩ := C87_text env h p devices w hw es hall text ht
  refine ⟨fs, hfs, ?_⟩
  have h58 := C58_replies env h p devices w hw es
  have heq : (keyboardReplies env h p (Sys.init devices w) es).map Sent.data =
      expected codeUp [] 0 (keyboardOps env h p (Sys.init devices w) es) :=
    pointwise_eq (pointwise_imp h58 (fun r b hm _ hc => (hc.2 (hall r hm).1 (hall r hm).2).1))
  have hq : queued ops = typed es := by
    have := queued_typed env h p es (Sys.init devices w)
    rw [hops] at this
    rw [← this]
    simp [queued]
  have hsn := expected_snoc ops ep st hep [] 0
  rw [← hops] at hsn
  have hl := congrArg List.getLast? heq
  rw [hsn, List.getLast?_map, hlast, List.getLast?_append, Option.map_some, hr] at hl
  simp only [List.getLast?_singleton, Option.some_or, Option.some.injEq, List.nil_append, Nat.zero_add] at hl
  have hlen : (script codeUp (typed es)).length ≤ reports.length := by
    have hrep : reports = (expected codeUp [] 0 ops).filter (fun b => !b.isEmpty) := by
      show ((keyboardReplies env h p (Sys.init devices w) es).map Sent.data).filter _ = _
      rw [heq, hsn, List.filter_append, List.nil_append, Nat.zero_add, ← hl]
      simp
    rw [hrep]
    rw [hq] at hl
    refine Nat.le_of_not_lt fun hlt => ?_
    rw [List.getD_eq_getElem?_getD, List.getElem?_eq_getElem hlt, Option.getD_some] at hl
    have := List.getElem_mem hlt
    rw [← hl] at this
    simp only [script, List.mem_flatMap, List.mem_cons, List.not_mem_nil, or_false] at this
    obtain ⟨r, _, h | h⟩ := this
    · simp [keyDownReport] at h
    · exact absurd h (by decide)
  have hsl : ∀ evs : List KeyReport, (script codeUp evs).length = 2 * evs.length := by
    intro evs
    induction evs with
    | nil => rfl
    | cons e evs ih =>
      rw [show script codeUp (e :: evs) = keyDownReport e :: codeUp :: script codeUp evs from rfl]
      simp only [List.length_cons, ih]; omega
  rw [hsl] at hlen
  have htl : text.length = (typed es).length := by simpa using congrArg List.length ht
  show hostReads fs [] reports = _
  rw [h1, List.take_of_length_le (by rw [List.length_map]; change _ ≤ (reports.length + 1) / 2; omega)]

/-! ## How the host learns about the reports -/

/-- C87: the HID descriptor announces the report descriptor's length, whatever the report descriptor is (up to 65535
bytes, all the descriptor has room for). -/
theorem C87_announced (k : Keyboard) (h : k.reportDescriptor.length < 65536) :
    announcedReport 1 k.classDescriptor = some k.reportDescriptor.length := by
  have e : announcedReport 1 k.classDescriptor =
      some ((asU8 k.reportDescriptor.length).toNat + 256 * (asU8 (k.reportDescriptor.length >>> 8)).toNat) := rfl
  rw [e]
  simp only [asU8, UInt8.toNat_ofNat', Nat.shiftRight_eq_div_pow]
  congr 1
  omega

/-- C87: a host that walks through the configuration descriptor of the keyboard example finds the report descriptor's length. -/
theorem C87_configuration (p : Profile) : ∃ d, exampleKeyboard p = .ok d ∧
    announcedReport (configBytes d).length (configBytes d) = some Keyboard.new.reportDescriptor.length := by
  rcases p with ⟨_ | _, _ | _⟩ <;> exact ⟨_, rfl, by decide +kernel⟩

theorem keyboard_keeps (ops : List (Op KeyReport)) : ∀ k : Keyboard,
    (objRun keyboardObj Keyboard.push k ops).2.reportDescriptor = k.reportDescriptor := by
  have hkeep : ∀ (k : Keyboard) (e : Endpoint) (st : SetupPacket), (k.handleUrb e st).2.reportDescriptor = k.reportDescriptor := by
    intro k e st
    unfold Keyboard.handleUrb
    repeat' split
    all_goals rfl
  induction ops with
  | nil => intro k; rfl
  | cons op ops ih =>
    intro k
    cases op with
    | app a => exact ih _
    | urb ep st => exact (ih _).trans (hkeep k ep st)

theorem keyboard_ep0 (p : Profile) : ∃ d ei eo f, keyboardProgram p = some (Sys.init [d] (freshWorld Keyboard.new)) ∧
    endpointAt d 0x80 = some (ei, none) ∧ endpointAt d 0 = some (eo, none) ∧ ei.attributes.toNat = 0 ∧
    eo.attributes.toNat = 0 ∧ ei.isEp0 = true ∧ eo.isEp0 = true ∧ d.interfaces[0]? = some f ∧ f.handler = 0 := by
  rcases p with ⟨_ | _, _ | _⟩ <;> exact ⟨_, _, _, _, rfl, rfl, rfl, rfl, rfl, rfl, rfl, rfl, rfl⟩

/-- C87: a client that has the keyboard of the example and asks its interface for the report descriptor is sent exactly
that, in every state the program can be in, unless the keyboard has crashed before. A client that sets the idle rate, as hosts do first, is
told it succeeded. Neither crashes the keyboard. -/
theorem C87_setup (p : Profile) (es : List ProgEvent) (s : Sys (Unit × Keyboard)) (c : Nat) (id : Bytes)
    (x : Conn) (ids : Bytes) (len : Nat) (direction : Nat) (setup data rest : Bytes)
    (hs : progRun keyboardObj keyboardFeed p (keyboardProgram p) es = some s)
    (hw : s.shared.world.ifPoisoned 0 = false)
    (hx : s.conns c = some x) (hr : x.status = .running) (hc : x.current = some id)
    (hp : parse p.debugAssertions x.input.bytes = .request (.transfer ids direction 0 len setup data) rest) :
    ∃ s', progRun keyboardObj keyboardFeed p (keyboardProgram p) (es ++ [.iterate c .full]) = some s' ∧
      (∀ index l l', direction = 1 → setup = [0x81, 6, index, 0x22, 0, 0, l, l'] →
        (newlySent s s' c).drop 48 = Keyboard.new.reportDescriptor ∧
        ((newlySent s s' c).drop 20).take 8 = [0, 0, 0, 0] ++ bigEndian 4 Keyboard.new.reportDescriptor.length ∧
        s'.shared.world.ifPoisoned 0 = false) ∧
      (∀ report rate l l', setup = [0x21, 0x0A, report, rate, 0, 0, l, l'] →
        (newlySent s s' c).drop 48 = [] ∧ ((newlySent s s' c).drop 20).take 8 = List.replicate 8 0 ∧
        s'.shared.world.ifPoisoned 0 = false) := by
  obtain ⟨d, ei, eo, f, hS, hei, heo, hai, hao, hzi, hzo, hf, hh⟩ := keyboard_ep0 p
  have hsys := keyboard_sys hS hs
  have hold : Holds s c id := ⟨x, hx, hr, hc⟩
  have hg : amGet id s.shared.used = some d := by
    rw [hsys] at hold ⊢
    exact only_device _ p d _ _ (no_table_events ProgEvent.keyboard Keyboard.push keyOne (fun _ _ => rfl)
      (fun _ _ => rfl) (fun _ => rfl) rfl es) c id hold
  have hk : s.shared.world.user.2.reportDescriptor = Keyboard.new.reportDescriptor := by
    have := (run_observed keyboardObj Keyboard.push 0 noHandlers p (es.map ProgEvent.keyboard)
      (Sys.init [d] (freshWorld Keyboard.new))).1
    rw [← hsys] at this
    rw [this]
    exact keyboard_keeps _ _
  obtain ⟨j, hj, hjd, hdir, hep, hset⟩ :=
    job_of_parse_setup p s c x id d ids direction 0 len setup data rest hx hr hc hg hp
  refine ⟨s.step (hosting keyboardObj 0 noHandlers) p (.iterate c .full), ?_, ?_⟩
  · rw [progRun_snoc, hs]; rfl
  -- either endpoint 0 will do
  have hurb : ∀ st : SetupPacket, setupAt setup = st → st.requestType.toNat % 16 = 1 → st.index = 0 →
      ∃ e, e.isEp0 = true ∧ j.urb 0 s.shared.world = some (e, st) := by
    intro st hst h1 h2
    have hns : ∀ e, ¬ standard e st := by
      intro e h
      rcases h with ⟨_, h, _⟩ | ⟨_, h, _⟩ <;> omega
    by_cases h0 : j.header.direction.toNat = 0
    · refine ⟨eo, hzo, ?_⟩
      have hadr : j.address = 0 := by unfold Job.address; rw [if_pos h0, hep]; rfl
      unfold Job.urb Job.call
      rw [hadr, hjd, heo, hset, hst]
      dsimp only
      unfold addressee
      rw [if_pos hao, if_neg (hns _), if_pos h1, h2, show (0 : UInt16).toNat % 256 = 0 from rfl, hf]
      simp only [Option.map_some, hh, hw, and_self, if_true]
    · refine ⟨ei, hzi, ?_⟩
      have hadr : j.address = 0x80 := by unfold Job.address; rw [if_neg h0, hep]; rfl
      unfold Job.urb Job.call
      rw [hadr, hjd, hei, hset, hst]
      dsimp only
      unfold addressee
      rw [if_pos hai, if_neg (hns _), if_pos h1, h2, show (0 : UInt16).toNat % 256 = 0 from rfl, hf]
      simp only [Option.map_some, hh, hw, and_self, if_true]
  have hstep := step_observed keyboardObj Keyboard.push 0 noHandlers p s (.server (.iterate c .full))
  simp only [observe, hj] at hstep
  constructor
  · rintro index l l' rfl rfl
    obtain ⟨e, he, hu⟩ := hurb _ rfl (show (0x81 : UInt8).toNat % 16 = 1 by decide) rfl
    rw [hu] at hstep
    obtain ⟨r, h1, _, _, h4, h5⟩ := hstep
    have hv : (setupAt [0x81, 6, index, 0x22, 0, 0, l, l']).value >>> 8 = 0x22 := by
      have hi := u8_lt index
      have e : (setupAt [0x81, 6, index, 0x22, 0, 0, l, l']).value = UInt16.ofNat (index.toNat + 8704) := rfl
      rw [e]
      apply UInt16.toNat_inj.mp
      simp only [UInt16.toNat_shiftRight, UInt16.toNat_ofNat']
      rw [Nat.mod_eq_of_lt (by omega), show (8 : UInt16).toNat % 16 = 8 from rfl, Nat.shiftRight_eq_div_pow]
      show _ = 34
      omega
    have hans : (keyboardObj e (setupAt [0x81, 6, index, 0x22, 0, 0, l, l']) s.shared.world.user.2).1 =
        .ok Keyboard.new.reportDescriptor := by
      simp only [keyboardObj, Keyboard.handleUrb, he, if_true]
      rw [if_pos ⟨rfl, rfl⟩, hv, ← hk]
      rfl
    rw [hans] at h4 h5
    cases h1
    obtain ⟨h4, _, h6⟩ := h4.2 (.inl (u32_ext (by rw [hdir]; rfl))) rfl (by decide)
    exact ⟨h4, h6, Bool.eq_false_iff.mpr fun h => nomatch h5.mp h⟩
  · rintro report rate l l' rfl
    obtain ⟨e, he, hu⟩ := hurb _ rfl (show (0x21 : UInt8).toNat % 16 = 1 by decide) rfl
    rw [hu] at hstep
    obtain ⟨r, h1, _, _, h4, h5⟩ := hstep
    have hans : (keyboardObj e (setupAt [0x21, 0x0A, report, rate, 0, 0, l, l']) s.shared.world.user.2).1 =
        .ok [] := by
      simp only [keyboardObj, Keyboard.handleUrb, he, if_true]
      rw [if_neg (fun h => absurd h.1 (show ¬ (0x21 : UInt8) = 0x81 by decide)), if_pos ⟨rfl, rfl⟩]
    rw [hans] at h4 h5
    cases h1
    obtain ⟨h4, _, h6⟩ := h4.2 (.inr rfl) rfl (by decide)
    exact ⟨h4, h6, Bool.eq_false_iff.mpr fun h => nomatch h5.mp h⟩

/-- C87: the host of the keyboard example reads the digit 1 over and over, once a second at most. -/
theorem C87_example (p : Profile) (es : List ProgEvent)
    (hall : ∀ r ∈ polled p es, r.direction = 1 ∧ r.write = .full) :
    let reports := ((polled p es).map Sent.data).filter (fun b => !b.isEmpty)
    ∃ fs n, hidParse Keyboard.new.reportDescriptor = some fs ∧ n ≤ seconds es ∧ n = (reports.length + 1) / 2 ∧
      hostReads fs [] reports = some (List.replicate n 49) := by
  intro reports
  obtain ⟨d, _, _, _, hS, _⟩ := exampleKeyboard_ok p
  have hp : polled p es = keyboardReplies noHandlers 0 p (Sys.init [d] (freshWorld Keyboard.new))
      (es.map ProgEvent.keyboard) := by unfold polled; rw [hS]
  have ht := typed_keyboard es
  obtain ⟨fs, h1, h2⟩ := C87_text noHandlers 0 p [d] (freshWorld Keyboard.new) rfl (es.map ProgEvent.keyboard)
    (by rw [← hp]; exact hall) (List.replicate (seconds es) 49)
    (by rw [ht, List.map_replicate, List.map_replicate]; rfl)
  rw [← hp] at h2
  have hlen : (reports.length + 1) / 2 ≤ seconds es := by
    obtain ⟨m, hm⟩ := C78_keyboard p es hall
    have hl : ∀ n, (typing n).length = 2 * n := by
      intro n
      induction n with
      | zero => rfl
      | succ n ih => simp only [typing, List.length_cons, ih]; omega
    have : reports.length = ((typing (seconds es)).take m).length := congrArg List.length hm
    rw [List.length_take, hl] at this
    omega
  refine ⟨fs, _, h1, hlen, rfl, ?_⟩
  rw [show hostReads fs [] reports = _ from h2, List.map_replicate, List.take_replicate]
  show some (List.replicate (min ((reports.length + 1) / 2) _) _) = _
  rw [Nat.min_eq_left hlen]
  rfl

/-! ## Tests and examples -/

/-- "a" with left shift and "b" at once: three keys. -/
example : keysDown keyboardFields (keyDownReport ⟨2, #v[4, 5, 0, 0, 0, 0]⟩) = [0xE1, 4, 5] := by decide

/-- The application types "hi", then Enter, while a client polls. -/
def greeting : List (HostedEvent Unit KeyReport) :=
  [.server (.connect 3 ⟨pollBytes ++ inTransfer 1 ++ inTransfer 1, .unexpectedEof⟩), .app ⟨0, #v[11, 0, 0, 0, 0, 0]⟩,
   .server (.iterate 3 .full), .server (.iterate 3 .full), .app ⟨0, #v[12, 0, 0, 0, 0, 0]⟩, .server (.iterate 3 .full),
   .app ⟨0, #v[40, 0, 0, 0, 0, 0]⟩, .server (.iterate 3 .full), .server (.iterate 3 .full), .server (.iterate 3 .full),
   .server (.iterate 3 .full), .server (.iterate 3 .full)]

/-- It is what `from_ascii` makes of these characters. -/
example : [104, 105, 13].map KeyReport.fromAscii = (typed greeting).map Outcome.ok := by decide

set_option maxRecDepth 100000 in
/-- The conditions of `C87_text` and `C87_whole_text`. -/
example : (∀ r ∈ keyboardReplies noHandlers 0 dev keyboardSys greeting, r.direction = 1 ∧ r.write = .full) ∧
    ((keyboardReplies noHandlers 0 dev keyboardSys greeting).getLast?.map Sent.data) = some [] ∧
    (keyboardOps noHandlers 0 dev keyboardSys greeting).length = 10 := by
  decide +kernel

set_option maxRecDepth 100000 in
/-- The host reads "hi" and a line feed. -/
example : hostReads keyboardFields []
    (((keyboardReplies noHandlers 0 dev keyboardSys greeting).map Sent.data).filter (fun b => !b.isEmpty)) =
    some [104, 105, 10] := by
  decide +kernel

/-- A control request to endpoint 0. -/
def control (direction : UInt8) (setup : Bytes) : Bytes :=
  be32 1 ++ be32 9 ++ be32 0 ++ [0, 0, 0, direction] ++ be32 0 ++ be32 0 ++ be32 (if direction = 0 then 0 else 64) ++
    be32 0 ++ be32 0 ++ be32 0 ++ setup

/-- A host that sets the idle rate and asks for the report descriptor. -/
def enumerating : List ProgEvent :=
  [attaching (control 0 [0x21, 0x0A, 0, 0, 0, 0, 0, 0] ++ control 1 [0x81, 6, 0, 0x22, 0, 0, 64, 0]), .tick,
    .iterate 3 .full, .iterate 3 .full]

set_option maxRecDepth 100000 in
/-- The conditions of `C87_setup`. -/
example : ∃ s x, progRun keyboardObj keyboardFeed dev (keyboardProgram dev) enumerating = some s ∧
    s.shared.world.ifPoisoned 0 = false ∧ s.conns 3 = some x ∧ x.status = .running ∧
    x.current = some [48, 45, 48, 45, 48] ∧
    parse dev.debugAssertions x.input.bytes =
      .request (.transfer [0, 0, 0, 9, 0, 0, 0, 0, 0, 0, 0, 1, 0, 0, 0, 0] 1 0 64 [0x81, 6, 0, 0x22, 0, 0, 64, 0] []) [] :=
  ⟨_, _, rfl, rfl, rfl, rfl, rfl, rfl⟩

set_option maxRecDepth 100000 in
example : ∃ s x, progRun keyboardObj keyboardFeed dev (keyboardProgram dev) (enumerating.take 3) = some s ∧
    s.shared.world.ifPoisoned 0 = false ∧ s.conns 3 = some x ∧ x.status = .running ∧
    x.current = some [48, 45, 48, 45, 48] ∧
    parse dev.debugAssertions x.input.bytes =
      .request (.transfer [0, 0, 0, 9, 0, 0, 0, 0, 0, 0, 0, 0, 0, 0, 0, 0] 0 0 0 [0x21, 0x0A, 0, 0, 0, 0, 0, 0] [])
        (control 1 [0x81, 6, 0, 0x22, 0, 0, 64, 0]) :=
  ⟨_, _, rfl, rfl, rfl, rfl, rfl, rfl⟩

/-- A keyboard with a longer report descriptor (300 bytes). -/
example : announcedReport 1 ({ Keyboard.new with reportDescriptor := List.replicate 300 0 } : Keyboard).classDescriptor = some 300 := by
  decide +kernel

end Usbip
