import Verif.Lemmas.Loop
import Verif.Props.Attended
import Verif.Props.Granted
/-!
# An example program and a Linux host (C100)

The example programs export one device, and do the same thing to it again and again: press a key, or write a byte.  A Linux host that
attaches the device of the program reads what the program types, or writes, and nothing else.
-/

namespace Usbip
open Spec Samples

section
variable {τ : Type} {code : Code τ} {env : Env (HandlerId → τ)} {p : Profile} {kbd : Device} {w : World (HandlerId → τ)}
  {e : MachineExec code env p (Machine.init code [kbd] w)} {c : Nat} {busid : Bytes} {devid : UInt32} {d : Nat → Driver}

theorem loop_devices {α : Type} {acts : Nat → List α} {one : α} (hL : MainLoop e acts one) (n : Nat) :
    devicesBy e.label [kbd] n = [kbd] := devicesBy_fixed hL.adds n

theorem loop_sole {α : Type} {acts : Nat → List α} {one : α} (hL : MainLoop e acts one) {h : Nat} (hn : kbd.busId = cstr busid) :
    Sole e [kbd] kbd h busid := by
  refine ⟨hn, fun n d hd _ => ?_, fun n => ?_⟩
  · rw [loop_devices hL] at hd
    exact List.mem_singleton.mp hd
  · rw [loop_devices hL]
    unfold Single
    simp

theorem loop_acts {α : Type} {acts : Nat → List α} {one : α} (h : ∀ n, acts n = [] ∨ acts n = [one]) (n : Nat) :
    actsBy acts n = List.replicate (rounds acts n) one := by
  unfold rounds
  induction n with
  | zero => rfl
  | succ n ih =>
    simp only [actsBy, List.length_append]
    rw [ih, List.length_replicate]
    rcases h n with h | h <;> rw [h]
    · simp
    · simp [List.replicate_succ']

theorem rounds_mono {α : Type} {acts : Nat → List α} {n m : Nat} (h : n ≤ m) : rounds acts n ≤ rounds acts m :=
  (actsBy_mono h).length_le

/-! ## The keyboard -/

/-- Every answer to a host that uses the keyboard as it has to fits its request. -/
theorem keyboard_log (hb : Behaves code env) (ha : Alongside e c busid devid d) (hk : exampleKeyboard p = .ok kbd)
    {view : τ → Keyboard} (hS : Serves code env 0 view keyboardObj) {keys : Nat → List KeyReport}
    (hU : Uses e (code.obj (.iface 0)) view Keyboard.push keys) (hD : Sole e [kbd] kbd 0 busid)
    (h0 : view (w.user (code.obj (.iface 0))) = Keyboard.new) (hH : ∀ n, KeyboardHost (d n))
    (f : Nat → List (MachineLabel (HandlerId → τ)) × List (Bytes × Handled))
    (hf : ∀ n, Told e c n (f n).1 (f n).2 ∧ (f n).2 <+: (f (n + 1)).2) (hf0 : (f 0).1 = [])
    (hf1 : ∀ n, (f (n + 1)).1 = (f n).1 ++ (e.label n).toList) (n : Nat) :
    (∀ g ∈ (f n).2.map (·.2), ∀ x, loggedFor (reachedBy kbd (ofIface 0) id) g = some x →
      ∃ b : Keyboard, b.reportDescriptor = Keyboard.new.reportDescriptor ∧ replied (x.1, (keyboardObj x.1.1 x.1.2 b).1) = some x) ∧
    ∀ g ∈ (f n).2.map (·.2), Fits g.1 g.2.1 ∧ Modest g.2.1 := by
  have hsp := told_spoken (I := fun b : Keyboard => b.reportDescriptor = Keyboard.new.reportDescriptor) hb ha hS hU hD (by rw [h0])
    (fun ep st b hI => by rw [keyboardObj_descriptor]; exact hI) (fun a b hI => hI) f hf hf0 hf1 n
  have hx := exchanged_told hb ha f hf
  refine ⟨hsp, fun g hg => ?_⟩
  have hsaid : g.1 ∈ (d n).said := (hx.asked n).subset (List.mem_map_of_mem hg)
  have hans := (hx.ok n g hg).1
  obtain ⟨g', hg', rfl⟩ := List.mem_map.mp hg
  have hfrom := fromDevice ha hD.named hD.single (ls := fun n => (f n).1) hf0 hf1 (hf n).1 g' hg'
  have hspg := hsp g'.2 hg
  obtain ⟨a, cmd, resp, bytes⟩ := g'
  dsimp only at *
  cases cmd with
  | submit hd fl len sf np iv setup data iso =>
    obtain ⟨q, hq, hc⟩ := said_issued ha n hsaid
    rw [← hc] at hfrom hspg ⊢
    exact keyboard_fits hk hfrom hspg ((hH n).number q hq) ((hH n).input q hq) ((hH n).output q hq) ((hH n).poll q hq)
      ((hH n).report q hq)
  | reqDevlist st => obtain ⟨_, rfl⟩ := hans; exact ⟨trivial, trivial⟩
  | reqImport st b => rcases hans with ⟨_, rfl⟩ | rfl <;> exact ⟨trivial, trivial⟩
  | unlink hd t => rw [show resp = _ from hans]; exact ⟨trivial, trivial⟩

theorem keyboard_report {hk : exampleKeyboard p = .ok kbd} {u : Urb} (ha : u.AsksReport) (devid seq : UInt32) :
    ∃ ep st, reachedBy kbd (ofIface 0) id (u.cmd devid seq) = some (ep, st) ∧
      ∀ b : Keyboard, b.reportDescriptor = Keyboard.new.reportDescriptor →
        (keyboardObj ep st b).1 = .ok Keyboard.new.reportDescriptor := by
  obtain ⟨f, h1, h2, h3⟩ := keyboard_endpoint hk
  obtain ⟨a1, a2, index, lo, hi, a3⟩ := ha
  have addr := urb_address kbd devid seq u (by rw [a2]; decide)
  rw [a1, a2] at addr
  refine ⟨⟨0x80, 0, 64, 0⟩, setupAt u.setup, ?_, fun b hb => ?_⟩
  · simp only [reachedBy, Urb.cmd]
    unfold Job.call
    dsimp only
    rw [h3, a1, a2, if_pos (by rw [addr]; rfl)]
    dsimp only
    unfold addressee
    rw [if_pos (by decide), if_neg (by rw [a3]; unfold standard setupAt; simp), if_pos (by rw [a3]; simp [setupAt]), h1]
    have : (setupAt u.setup).index.toNat % 256 = 0 := by rw [a3]; simp [setupAt]
    rw [this]
    simp [ofIface, h2]
  · have h6 : (setupAt u.setup).requestType = 0x81 ∧ (setupAt u.setup).request = 6 ∧ (setupAt u.setup).value >>> 8 = 0x22 := by
      rw [a3]
      refine ⟨rfl, rfl, ?_⟩
      have hi := index.toNat_lt
      apply UInt16.toNat_inj.mp
      simp [setupAt, Nat.shiftRight_eq_div_pow]
      omega
    unfold keyboardObj Keyboard.handleUrb
    rw [if_pos (by decide), h6.1, h6.2.1]
    simp only [h6.2.2]
    rw [show isHidReport 34 = true by decide]
    simp [hb]

/-- C100: a Linux host that attaches the keyboard of examples/hid_keyboard.rs.  The host is never given anything that it did not ask
for; the report descriptor it reads is the keyboard's; and what it reads, by this descriptor, is a text of the character 1 only, one for
each round of the program's main loop, from the first one that no other client has read.  It reads all of them that were typed up to some
moment once it has polled often enough after that.  If no other client asks for the device, the host is not refused, and attaches it some
time.  Unless the connection is gone. -/
theorem C100_keyboard (hb : Behaves code env) (ha : Alongside e c busid devid d) (hk : exampleKeyboard p = .ok kbd)
    (hbus : cstr busid = ascii "0-0-0") {view : τ → Keyboard} (hS : Serves code env 0 view keyboardObj)
    (h0 : view (w.user (code.obj (.iface 0))) = Keyboard.new) {keys : Nat → List KeyReport}
    (hU : Uses e (code.obj (.iface 0)) view Keyboard.push keys) (hL : MainLoop e keys keyOne) (hH : ∀ n, KeyboardHost (d n)) :
    ∃ i, (Lone e c → i = 0) ∧
      (∀ n, (d n).phase ≠ .broken ∧
        (∀ g ∈ (d n).done, g.urb.AsksReport → g.status = 0 ∧ g.data = Keyboard.new.reportDescriptor) ∧
        ∃ k, (d n).Reads Keyboard.new.reportDescriptor (List.replicate k 49) ∧ k ≤ rounds keys n - i) ∧
      (Returns code → e.Fair → Delivers e c d → ∀ n0 n1, n0 ≤ n1 → (d n0).phase = .attached →
        (d n0).asked 1 + 2 * rounds keys n0 + 2 ≤ (d n1).asked 1 →
        ∃ m, n1 ≤ m ∧ ((∃ k, (d m).Reads Keyboard.new.reportDescriptor (List.replicate k 49) ∧ rounds keys n0 ≤ k + i) ∨
          (e.state m).whole.ended c ≠ none ∨
          ∃ y, (e.state m).whole.fine.cfg.conns c = some y ∧ (y.status = .panicked ∨ e.Faulted c m y))) ∧
      (Unclaimed e c busid → (∀ n, (d n).phase ≠ .refused) ∧
        (Returns code → e.Fair → Delivers e c d → ∀ n, ((e.state n).front c = .accepted ∨
            ∃ k q, (e.state n).calls k = some (.listening q) ∧ c ∈ q ∧ ∀ m, n ≤ m → e.label m ≠ some (.dropServe k)) →
          ∃ m, n ≤ m ∧ ((d m).phase = .attached ∨ (e.state m).whole.ended c ≠ none ∨
            ∃ y, (e.state m).whole.fine.cfg.conns c = some y ∧ (y.status = .panicked ∨ e.Faulted c m y)))) := by
  have hname : kbd.busId = cstr busid := by
    obtain ⟨_, _, _, _, _, _, _, h, _⟩ := keyboard_shape hk
    rw [hbus, h]
  have hD : Sole e [kbd] kbd 0 busid := loop_sole hL hname
  have hE : Exported e [kbd] kbd busid := ⟨hD.named, hD.single⟩
  obtain ⟨f, hf, hf0, hf1⟩ := exists_told hb e c
  have hx := exchanged_told hb ha f hf
  have hlog := keyboard_log hb ha hk hS hU hD h0 hH f hf hf0 hf1
  have hmod : ∀ n, ∀ g ∈ (f n).2.map (·.2), Modest g.2.1 := fun n g hg => ((hlog n).2 g hg).2
  have nover : ∀ n hrd, ¬ Overrun ((f n).2.map (·.2)) hrd := by
    rintro n hrd ⟨pre, g, post, h1, _, h3, _⟩
    exact h3 ((hlog n).2 g (by rw [h1]; simp)).1
  have safe := fun n => C92_safe code env p [kbd] w e c busid devid d ha _ hx n (hmod n)
  have whole : ∀ n, (d n).phase ≠ .broken := fun n h => nover n _ ((safe n).1.mp h)
  have hdone : ∀ n, ∀ g ∈ (d n).done, g.urb.ep.toNat < 16 := by
    intro n g hg
    have h1 := ((safe n).2.2.1 (whole n)).1
    exact (hH n).number (g.seq, g.urb) (by rw [← h1]; exact List.mem_append_left _ (List.mem_map_of_mem hg))
  obtain ⟨j, hj0, hj1, hj2⟩ := attended_told hb ha hS hU hD keyboardFeeds (by rw [h0]; rfl) f hf hf0 hf1
  have len : ∀ evs : List KeyReport, (evs.flatMap (fun r => [keyDownReport r, codeUp])).length = 2 * evs.length := by
    intro evs
    induction evs with
    | nil => rfl
    | cons r evs ih => simp only [List.flatMap_cons, List.length_append, ih, List.length_cons, List.length_nil]; omega
  have text : ∀ n, (List.replicate (rounds keys n) 49).map KeyReport.fromAscii = (actsBy keys n).map Outcome.ok := by
    intro n
    rw [loop_acts hL.once n, List.map_replicate, List.map_replicate]
    congr 1
  have hent : ∀ n, (List.replicate n 49).map enter = List.replicate n 49 := by
    intro n; rw [List.map_replicate]; rfl
  have reads : ∀ n, hostReads keyboardFields [] (((d n).got 1).filter (fun b => !b.isEmpty)) =
      some (List.replicate (min (((((d n).got 1).filter (fun b => !b.isEmpty)).length + (1 - j % 2)) / 2) (rounds keys n - (j + 1) / 2)) 49) := by
    intro n
    have h3 := (hj1 n (hmod n) (whole n)).2
    rw [← reports_readBack, keyboard_got hk _ (hdone n)] at h3
    have := hostReads_part _ _ (text n) j h3
    rw [hent, List.drop_replicate, List.take_replicate] at this
    exact this
  refine ⟨(j + 1) / 2, fun h => by rw [hj0 h], fun n => ⟨whole n, fun g hg hrep => ?_, _, ⟨_, keyboard_parsed, reads n⟩, Nat.min_le_right _ _⟩,
    fun hret hfair hdel n0 n1 hle hat hc => ?_, fun hun => ?_⟩
  · have h1 := ((safe n).2.2.1 (whole n)).2
    have h2 := h1.subset (List.mem_map_of_mem (f := fun g => (g.urb.cmd devid g.seq, g.status, g.data)) hg)
    obtain ⟨g0, hg0, ho⟩ := List.mem_filterMap.mp h2
    obtain ⟨ep, st, hr, hall⟩ := keyboard_report (hk := hk) hrep devid g.seq
    obtain ⟨b, hb1, hb2⟩ := (hlog n).1 g0 hg0 ((ep, st), g.status, g.data) (by
      rw [loggedFor, ho]; simp only [Option.bind_some, hr, Option.map_some])
    dsimp only at hb2
    rw [hall b hb1] at hb2
    injection hb2 with hb2; injection hb2 with _ hb2; injection hb2 with h5 h6
    exact ⟨h5.symm, h6.symm⟩
  · obtain ⟨m, hm, H⟩ := hj2 hret hfair (no_removals hb e hL.starts) hdel n0 n1 hle hat (by
      rw [len, keyboard_wanted hk _ (hH n0).number, keyboard_wanted hk _ (hH n1).number]; exact hc)
    refine ⟨m, hm, ?_⟩
    rcases H with H | ⟨g, hg, hn⟩ | H | H
    · refine .inl ⟨_, ⟨_, keyboard_parsed, reads m⟩, ?_⟩
      rw [← reports_readBack, keyboard_got hk _ (hdone m)] at H
      have hl := H.length_le
      rw [List.length_drop, len] at hl
      have := rounds_mono (acts := keys) (show n0 ≤ m by omega)
      have hr : (actsBy keys n0).length = rounds keys n0 := rfl
      rw [hr] at hl
      omega
    · exact absurd (hmod m g hg) hn
    · exact absurd H (nover m _)
    · exact .inr H
  · have hO : Offered e [kbd] kbd c := fun n _ => by rw [loop_devices hL]; exact List.mem_singleton.mpr rfl
    obtain ⟨g1, g2⟩ := given_told hb ha hE hO hun f hf hf0 hf1
    refine ⟨fun n => (g1 n).2 (hmod n), fun hret hfair hdel n hq => ?_⟩
    obtain ⟨m, hm, H⟩ := g2 hret hfair (no_removals hb e hL.starts) hdel n hq
    refine ⟨m, hm, ?_⟩
    rcases H with H | ⟨g, hg, hn⟩ | H | H
    · exact .inl H.1
    · exact absurd (hmod m g hg) hn
    · exact absurd H (nover m _)
    · exact .inr H

/-! ## The serial port -/

/-- C100: a Linux host that attaches the serial port of examples/cdc_acm_serial.rs.  What it reads is the character a and nothing else,
once for each round of the program's main loop, from the first one that no other client has read.  It reads all that were written up to
some moment once it has asked often enough after that.  If no other client asks for the device, the host is not refused, and attaches it
some time.  Unless the connection is gone, or a response did not fit its request (the port sends all that has been written, however
little was asked for: `C94_fails_short`). -/
theorem C100_serial {ser : Device} {e : MachineExec code env p (Machine.init code [ser] w)} (hb : Behaves code env)
    (ha : Alongside e c busid devid d) (hk : exampleSerial p = .ok ser)
    (hbus : cstr busid = ascii "0-0-0") {view : τ → Cdc} (hS : Serves code env 0 view serialObj)
    (h0 : view (w.user (code.obj (.iface 0))) = Cdc.new) {writes : Nat → List Bytes}
    (hU : Uses e (code.obj (.iface 0)) view Cdc.write writes) (hL : MainLoop e writes [97]) (hH : ∀ n, SerialHost (d n)) :
    ∃ log i, Exchanged e c d log ∧ (Lone e c → i = 0) ∧
      (∀ n, (∀ g ∈ log n, Modest g.2.1) → (d n).phase ≠ .broken →
        ∃ k, ((d n).got 2).flatten = List.replicate k 97 ∧ k ≤ rounds writes n - i) ∧
      (Returns code → e.Fair → Delivers e c d → ∀ n0 n1, n0 ≤ n1 → (d n0).phase = .attached →
        (d n0).asked 2 + rounds writes n0 + 2 ≤ (d n1).asked 2 →
        ∃ m, n1 ≤ m ∧ ((∃ k, ((d m).got 2).flatten = List.replicate k 97 ∧ rounds writes n0 ≤ k + i) ∨
          (∃ g ∈ log m, ¬ Modest g.2.1) ∨ Overrun (log m) (d m).heard ∨ (e.state m).whole.ended c ≠ none ∨
          ∃ y, (e.state m).whole.fine.cfg.conns c = some y ∧ (y.status = .panicked ∨ e.Faulted c m y))) ∧
      (Unclaimed e c busid → (∀ n, (∀ g ∈ log n, Modest g.2.1) → (d n).phase ≠ .refused) ∧
        (Returns code → e.Fair → Delivers e c d → ∀ n, ((e.state n).front c = .accepted ∨
            ∃ k q, (e.state n).calls k = some (.listening q) ∧ c ∈ q ∧ ∀ m, n ≤ m → e.label m ≠ some (.dropServe k)) →
          ∃ m, n ≤ m ∧ ((d m).phase = .attached ∨ (∃ g ∈ log m, ¬ Modest g.2.1) ∨ Overrun (log m) (d m).heard ∨
            (e.state m).whole.ended c ≠ none ∨
            ∃ y, (e.state m).whole.fine.cfg.conns c = some y ∧ (y.status = .panicked ∨ e.Faulted c m y)))) := by
  have hname : ser.busId = cstr busid := by rw [hbus, (serial_endpoint hk).1]
  have hD : Sole e [ser] ser 0 busid := loop_sole hL hname
  have hE : Exported e [ser] ser busid := ⟨hD.named, hD.single⟩
  obtain ⟨f, hf, hf0, hf1⟩ := exists_told hb e c
  have hx := exchanged_told hb ha f hf
  have hreach : ∀ n, ∀ q ∈ (d n).issued, _ := fun n q hq =>
    serial_reached hk q.2 (d n).devid q.1 ((hH n).number q hq) ((hH n).control q hq)
  obtain ⟨j, hj0, hj1, hj2⟩ := serial_told hb ha hS hU hD h0 (fun n ep hw => by
    obtain ⟨q, hq, hr⟩ := List.mem_filterMap.mp hw
    exact (hreach n q hq).2 ep hr) f hf hf0 hf1
  have text : ∀ n, (actsBy writes n).flatten = List.replicate (rounds writes n) 97 := by
    intro n
    rw [loop_acts hL.once n]
    generalize rounds writes n = k
    induction k with
    | zero => rfl
    | succ k ih => rw [List.replicate_succ, List.flatten_cons, ih]; rfl
  have asked : ∀ n, (wanted ser 0 (d n)).countP (fun ep => decide (BulkIn ep)) = (d n).asked 2 := fun n =>
    wanted_asked 0 _ 2 (d n) fun q hq => by
      simp only [decide_eq_true_iff]
      exact (hreach n q hq).1
  have got : ∀ n, (∀ g ∈ (f n).2.map (·.2), Modest g.2.1) → (d n).phase ≠ .broken → bytesRead ser 0 (d n) = ((d n).got 2).flatten := by
    intro n hm hp
    have h1 := ((C92_safe code env p [ser] w e c busid devid d ha _ hx n hm).2.2.1 hp).1
    rw [← given_got (dev := ser) 0 (fun ep => decide (BulkIn ep)) 2 (d n) fun g hg => by
      simp only [decide_eq_true_iff]
      exact (hreach n (g.seq, g.urb) (by rw [← h1]; exact List.mem_append_left _ (List.mem_map_of_mem hg))).1]
    unfold bytesRead
    rw [List.flatMap_def]
  have reads : ∀ n, (∀ g ∈ (f n).2.map (·.2), Modest g.2.1) → (d n).phase ≠ .broken →
      ((d n).got 2).flatten = List.replicate ((d n).got 2).flatten.length 97 ∧ ((d n).got 2).flatten.length ≤ rounds writes n - j := by
    intro n hm hp
    have h3 := (hj1 n hm hp).2
    rw [got n hm hp, text, List.drop_replicate] at h3
    have hl := h3.length_le
    rw [List.length_replicate] at hl
    refine ⟨?_, hl⟩
    have := List.prefix_iff_eq_take.mp h3
    rw [List.take_replicate, Nat.min_eq_left hl] at this
    exact this
  refine ⟨_, j, hx, hj0, fun n hm hp => ⟨_, reads n hm hp⟩, fun hret hfair hdel n0 n1 hle hat hc => ?_, fun hun => ?_⟩
  · obtain ⟨m, hm, H⟩ := hj2 hret hfair (no_removals hb e hL.starts) hdel n0 n1 hle hat (by
      rw [text, List.length_replicate, asked, asked]; exact hc)
    refine ⟨m, hm, ?_⟩
    rcases H with H | H
    rotate_left
    · exact .inr H
    by_cases hmod : ∀ g ∈ (f m).2.map (·.2), Modest g.2.1
    rotate_left
    · simp only [Classical.not_forall] at hmod
      obtain ⟨g, hg, hn⟩ := hmod
      exact .inr (.inl ⟨g, hg, hn⟩)
    by_cases hbr : (d m).phase = .broken
    · exact .inr (.inr (.inl ((C92_safe code env p [ser] w e c busid devid d ha _ hx m hmod).1.mp hbr)))
    refine .inl ⟨_, (reads m hmod hbr).1, ?_⟩
    rw [got m hmod hbr, text] at H
    have hl := H.length_le
    rw [List.length_drop, List.length_replicate] at hl
    omega
  · have hO : Offered e [ser] ser c := fun n _ => by rw [loop_devices hL]; exact List.mem_singleton.mpr rfl
    obtain ⟨g1, g2⟩ := given_told hb ha hE hO hun f hf hf0 hf1
    refine ⟨fun n => (g1 n).2, fun hret hfair hdel n hq => ?_⟩
    obtain ⟨m, hm, H⟩ := g2 hret hfair (no_removals hb e hL.starts) hdel n hq
    refine ⟨m, hm, ?_⟩
    rcases H with H | H
    · exact .inl H.1
    · exact .inr H

end

/-! ## Cases -/

namespace Samples

/-- The devices of the example programs. -/
def kbd0 : Device := match exampleKeyboard dev with | .ok d => d | _ => devA
def ser0 : Device := match exampleSerial dev with | .ok d => d | _ => devA

/-- Bus id 0-0-0 as it is sent. -/
def bus0 : Bytes := [48, 45, 48, 45, 48] ++ List.replicate 27 0

/-- The host reads the report descriptor and polls four times, with room for 8 bytes. -/
def pollKeys : List (UInt32 × Urb) :=
  (7, { wish with ep := 0, len := 45, setup := [0x81, 6, 0, 0x22, 0, 0, 45, 0] }) :: four { wish with len := 8 }

theorem pollKeys_wf : ∀ q ∈ pollKeys, WellFormed true (q.2.cmd 65538 q.1) := by
  intro q hq
  simp only [pollKeys, four, List.mem_cons, List.not_mem_nil, or_false] at hq
  rcases hq with rfl | rfl | rfl | rfl | rfl <;> exact ⟨rfl, fun _ => Nat.le_refl 1, rfl, rfl, rfl⟩

/-- A round of the keyboard program. -/
theorem typedOne : ∃ (e : MachineExec (oneShot keyboardObj) (oneEnv keyboardObj) dev
      (Machine.init (oneShot keyboardObj) [kbd0] (oneWorld Keyboard.new))) (d : Nat → Driver)
      (keys : Nat → List KeyReport) (n0 n1 n2 : Nat),
      Polled e d (Keyboard.new.push keyOne) pollKeys Keyboard.push [keyOne] keys n0 n1 n2 :=
  polled ⟨pollKeys_wf, by decide, by decide +kernel, by decide +kernel, by decide +kernel, by decide +kernel, by decide +kernel,
    by decide +kernel, by decide +kernel, rfl⟩ (by decide +kernel) _ _ rfl

/-- C100 on it: all hypotheses are met.  The program has come round once before time `n0`, when the host has attached the keyboard; the
host polls four times after that; in the end it has read the text 1. -/
example : ∃ (e : MachineExec (oneShot keyboardObj) (oneEnv keyboardObj) dev
      (Machine.init (oneShot keyboardObj) [kbd0] (oneWorld Keyboard.new))) (d : Nat → Driver)
      (keys : Nat → List KeyReport) (n0 n1 n2 : Nat),
    Behaves (oneShot keyboardObj) (oneEnv keyboardObj) ∧ Alongside e 0 bus0 65538 d ∧ exampleKeyboard dev = .ok kbd0 ∧
    cstr bus0 = ascii "0-0-0" ∧ Serves (oneShot keyboardObj) (oneEnv keyboardObj) 0 id keyboardObj ∧
    (oneWorld Keyboard.new).user ((oneShot keyboardObj).obj (.iface 0)) = Keyboard.new ∧
    Uses e ((oneShot keyboardObj).obj (.iface 0)) id Keyboard.push keys ∧ MainLoop e keys keyOne ∧ (∀ n, KeyboardHost (d n)) ∧
    Lone e 0 ∧ Returns (oneShot keyboardObj) ∧ e.Fair ∧ Delivers e 0 d ∧ n0 ≤ n1 ∧ (d n0).phase = .attached ∧ rounds keys n0 = 1 ∧
    (d n0).asked 1 + 2 * rounds keys n0 + 2 ≤ (d n1).asked 1 ∧ Unclaimed e 0 bus0 ∧
    (∃ k q, (e.state 2).calls k = some (.listening q) ∧ 0 ∈ q ∧ ∀ m, 2 ≤ m → e.label m ≠ some (.dropServe k)) ∧
    ∀ n, n2 ≤ n → (∃ g ∈ (d n).done, g.urb.AsksReport) ∧ (d n).Reads Keyboard.new.reportDescriptor [49] := by
  obtain ⟨e, d, keys, n0, n1, n2, h⟩ := typedOne
  refine ⟨e, d, keys, n0, n1, n2, oneShot_behaves _, h.alongside, rfl, by decide, oneShot_serves _ _, rfl, h.uses,
    ⟨h.once, h.adds, h.kept, h.starts⟩, fun n => ?_, h.lone, oneShot_returns _, h.fair, h.delivers, h.le, ?_, ?_, ?_,
    ⟨fun c' hc ⟨n, ha⟩ => absurd ha (h.lone n c' hc), fun n lb hl => h.kept n lb _ hl⟩,
    ⟨0, [0], h.queued.1, List.mem_singleton.mpr rfl, fun m _ => h.queued.2 m 0⟩, fun n hn => ?_⟩
  · rcases h.always n with hd | hd | hd | hd <;> rw [hd] <;>
      exact ⟨by decide +kernel, by decide +kernel, by decide +kernel, by decide +kernel, by decide +kernel⟩
  · rw [h.at0]; decide +kernel
  · rw [rounds, h.acted]; rfl
  · rw [rounds, h.acted, h.at0, h.at1]; decide +kernel
  · rw [h.at2 n hn]
    refine ⟨?_, keyboardFields, keyboard_parsed, by decide +kernel⟩
    have hm : (poller3 (oneEnv keyboardObj) (oneWorld Keyboard.new) (.use (.iface 0) (Keyboard.new.push keyOne)) kbd0 pollKeys).done.map
        (fun g => (g.seq, g.urb)) = pollKeys := by decide +kernel
    obtain ⟨g, hg, he⟩ := List.mem_map.mp (show pollKeys.head (by decide) ∈ _ by rw [hm]; exact List.head_mem _)
    exact ⟨g, hg, by rw [show g.urb = _ from congrArg Prod.snd he]; exact ⟨rfl, rfl, 0, 45, 0, rfl⟩⟩

/-- A round of the serial program; the host asks four times. -/
theorem wroteOne : ∃ (e : MachineExec (oneShot serialObj) (oneEnv serialObj) dev
      (Machine.init (oneShot serialObj) [ser0] (oneWorld Cdc.new))) (d : Nat → Driver)
      (writes : Nat → List Bytes) (n0 n1 n2 : Nat),
      Polled e d (Cdc.new.write [97]) (four { wish with ep := 2 }) Cdc.write [[97]] writes n0 n1 n2 :=
  polled ⟨four_wf (u := { wish with ep := 2 }) (fun _ => ⟨rfl, fun _ => Nat.le_refl 1, rfl, rfl, rfl⟩), by decide, by decide +kernel, by decide +kernel, by decide +kernel,
    by decide +kernel, by decide +kernel, by decide +kernel, by decide +kernel, rfl⟩ (by decide +kernel) _ _ rfl

/-- C100 on it: all hypotheses are met, and in the end the host has read an a. -/
example : ∃ (e : MachineExec (oneShot serialObj) (oneEnv serialObj) dev
      (Machine.init (oneShot serialObj) [ser0] (oneWorld Cdc.new))) (d : Nat → Driver)
      (writes : Nat → List Bytes) (n0 n1 n2 : Nat),
    Behaves (oneShot serialObj) (oneEnv serialObj) ∧ Alongside e 0 bus0 65538 d ∧ exampleSerial dev = .ok ser0 ∧
    cstr bus0 = ascii "0-0-0" ∧ Serves (oneShot serialObj) (oneEnv serialObj) 0 id serialObj ∧
    (oneWorld Cdc.new).user ((oneShot serialObj).obj (.iface 0)) = Cdc.new ∧
    Uses e ((oneShot serialObj).obj (.iface 0)) id Cdc.write writes ∧ MainLoop e writes [97] ∧ (∀ n, SerialHost (d n)) ∧
    Lone e 0 ∧ Returns (oneShot serialObj) ∧ e.Fair ∧ Delivers e 0 d ∧ n0 ≤ n1 ∧ (d n0).phase = .attached ∧ rounds writes n0 = 1 ∧
    (d n0).asked 2 + rounds writes n0 + 2 ≤ (d n1).asked 2 ∧ Unclaimed e 0 bus0 ∧
    (∃ k q, (e.state 2).calls k = some (.listening q) ∧ 0 ∈ q ∧ ∀ m, 2 ≤ m → e.label m ≠ some (.dropServe k)) ∧
    ∀ n, n2 ≤ n → (d n).phase = .attached ∧ ((d n).got 2).flatten = [97] := by
  obtain ⟨e, d, writes, n0, n1, n2, h⟩ := wroteOne
  refine ⟨e, d, writes, n0, n1, n2, oneShot_behaves _, h.alongside, rfl, by decide, oneShot_serves _ _, rfl, h.uses,
    ⟨h.once, h.adds, h.kept, h.starts⟩, fun n => ?_, h.lone, oneShot_returns _, h.fair, h.delivers, h.le, ?_, ?_, ?_,
    ⟨fun c' hc ⟨n, ha⟩ => absurd ha (h.lone n c' hc), fun n lb hl => h.kept n lb _ hl⟩,
    ⟨0, [0], h.queued.1, List.mem_singleton.mpr rfl, fun m _ => h.queued.2 m 0⟩, fun n hn => ?_⟩
  · rcases h.always n with hd | hd | hd | hd <;> rw [hd] <;> exact ⟨by decide +kernel, by decide +kernel⟩
  · rw [h.at0]; decide +kernel
  · rw [rounds, h.acted]; rfl
  · rw [rounds, h.acted, h.at0, h.at1]; decide +kernel
  · rw [h.at2 n hn]
    exact ⟨by decide +kernel, by decide +kernel⟩

end Samples

end Usbip
