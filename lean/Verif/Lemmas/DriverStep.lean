import Verif.Spec.Driver
import Verif.Lemmas.Client
/-! Helper lemmas: what a host does with what it receives. -/

namespace Usbip
open Spec

theorem slice_prefix {a b : Bytes} (h : a <+: b) (i k : Nat) (hl : i + k ≤ a.length) :
    (a.drop i).take k = (b.drop i).take k := by
  obtain ⟨t, rfl⟩ := h
  rw [List.drop_append_of_le_length (by omega), List.take_append_of_le_length (by rw [List.length_drop]; omega)]

theorem field_prefix {a b : Bytes} (h : a <+: b) (i k : Nat) (hl : i + k ≤ a.length) : field a i k = field b i k := by
  rw [field, field, slice_prefix h i k hl]

/-- Enough has been received. -/
theorem prefix_split {a b c : Bytes} (h : a <+: b ++ c) (hl : b.length ≤ a.length) :
    a = b ++ a.drop b.length ∧ a.drop b.length <+: c := by
  obtain ⟨t, ht⟩ := h
  have hb : a.take b.length = b := by
    have := congrArg (List.take b.length) ht
    rw [List.take_append_of_le_length hl, List.take_left] at this
    exact this
  have h1 : a = b ++ a.drop b.length := by
    conv => lhs; rw [← List.take_append_drop b.length a, hb]
  refine ⟨h1, t, ?_⟩
  rw [h1, List.append_assoc, List.append_cancel_left_eq] at ht
  exact ht

/-! ## Replies -/

theorem submit_fields {p : Profile} {h : Header} {st al : UInt32} {buf bs : Bytes}
    (hb : (Resp.retSubmit h st al 0 0 0 buf []).toBytes p = .ok bs) (more : Bytes) :
    field (bs ++ more) 0 4 = h.command.toNat ∧ field (bs ++ more) 4 4 = h.seqnum.toNat ∧
    field (bs ++ more) 20 4 = st.toNat ∧ field (bs ++ more) 24 4 = al.toNat ∧ field (bs ++ more) 32 4 = 0 ∧
    bs.length = 48 + buf.length ∧ (bs.drop 48) = buf := by
  simp only [Resp.toBytes, Outcome.bind_eq_ok] at hb
  obtain ⟨_, _, _, _, hb⟩ := hb
  simp only [Outcome.pure_eq, Outcome.ok.injEq] at hb
  subst hb
  simp only [List.append_assoc, List.append_nil]
  rw [header_bytes]
  have hz : (0 : UInt32).toNat = 0 := rfl
  refine ⟨?_, ?_, ?_, ?_, ?_, ?_, ?_⟩
  · simp [header_bytes, field32]
  · simp [header_bytes, skip32, field32]
  · simp [header_bytes, skip32, field32]
  · simp [header_bytes, skip32, field32]
  · simp [header_bytes, skip32, field32]
  · simp [Nat.add_assoc]; omega
  · rw [header_bytes]
    have e : be32 h.command ++ (be32 h.seqnum ++ (be32 h.devid ++ (be32 h.direction ++ (be32 h.ep ++
        (be32 st ++ (be32 al ++ (be32 0 ++ (be32 0 ++ (be32 0 ++ (List.replicate 8 0 ++ buf)))))))))) =
        (be32 h.command ++ be32 h.seqnum ++ be32 h.devid ++ be32 h.direction ++ be32 h.ep ++ be32 st ++ be32 al ++
          be32 0 ++ be32 0 ++ be32 0 ++ List.replicate 8 0) ++ buf := by simp
    rw [e, List.drop_left' (by simp)]

theorem unlink_fields {p : Profile} {h : Header} {st : UInt32} {bs : Bytes}
    (hb : (Resp.retUnlink h st).toBytes p = .ok bs) (more : Bytes) :
    field (bs ++ more) 0 4 = h.command.toNat ∧ field (bs ++ more) 4 4 = h.seqnum.toNat ∧ bs.length = 48 := by
  simp only [Resp.toBytes, Outcome.bind_eq_ok] at hb
  obtain ⟨_, _, hb⟩ := hb
  simp only [Outcome.pure_eq, Outcome.ok.injEq] at hb
  subst hb
  simp only [List.append_assoc]
  refine ⟨?_, ?_, ?_⟩
  · simp [header_bytes, field32]
  · simp [header_bytes, skip32, field32]
  · simp

theorem refused_fields {p : Profile} {bs : Bytes} (hb : (Resp.repImport 1 none).toBytes p = .ok bs) (more : Bytes) :
    field (bs ++ more) 0 2 = 0x0111 ∧ field (bs ++ more) 2 2 = 3 ∧ field (bs ++ more) 4 4 = 1 ∧ bs.length = 8 := by
  simp only [Resp.toBytes, Outcome.bind_eq_ok] at hb
  obtain ⟨_, h0, hb⟩ := hb
  simp only [Outcome.ok.injEq] at h0
  simp only [Outcome.pure_eq, Outcome.ok.injEq] at hb
  subst h0; subst hb
  simp only [List.append_assoc]
  refine ⟨?_, ?_, ?_, ?_⟩
  · rw [field16]; rfl
  · rw [skip16 _ _ _ _ (by omega), field16]; rfl
  · rw [skip16 _ _ _ _ (by omega), skip16 _ _ _ _ (by omega), field32]; rfl
  · simp

theorem granted_fields {p : Profile} {dev : Device} {bs : Bytes} (hb : (Resp.repImport 0 (some dev)).toBytes p = .ok bs)
    (more : Bytes) :
    field (bs ++ more) 0 2 = 0x0111 ∧ field (bs ++ more) 2 2 = 3 ∧ field (bs ++ more) 4 4 = 0 ∧ bs.length = 320 ∧
    cstr (((bs ++ more).drop 264).take 32) = cstr (dev.busId.take 32) := by
  simp only [Resp.toBytes, Outcome.bind_eq_ok] at hb
  obtain ⟨_, h0, hb⟩ := hb
  have h0 := toBytes_inv h0
  simp only [Outcome.pure_eq, Outcome.ok.injEq] at hb
  subst h0; subst hb
  have hi := congrArg DevInfo.busId (readDevInfo_record dev)
  simp only [readDevInfo, devInfo] at hi
  simp only [List.append_assoc]
  refine ⟨?_, ?_, ?_, ?_, ?_⟩
  · rw [field16]; rfl
  · rw [skip16 _ _ _ _ (by omega), field16]; rfl
  · rw [skip16 _ _ _ _ (by omega), skip16 _ _ _ _ (by omega), field32]; rfl
  · simp [recordBytes_length]
  · have e : be16 USBIP_VERSION ++ (be16 OP_REP_IMPORT ++ (be32 0 ++ (recordBytes dev ++ more))) =
        (be16 USBIP_VERSION ++ be16 OP_REP_IMPORT ++ be32 0) ++ (recordBytes dev ++ more) := by simp
    rw [e, List.drop_append, List.drop_of_length_le (by simp), List.nil_append]
    have hl : 264 - (be16 USBIP_VERSION ++ be16 OP_REP_IMPORT ++ be32 0).length = 256 := by simp
    rw [hl, List.drop_append_of_le_length (by rw [recordBytes_length]; omega),
      List.take_append_of_le_length (by rw [List.length_drop, recordBytes_length]; omega), hi]

/-! ## The host -/

/-- A request that has not been answered. -/
inductive Item where
  | sub (seq : UInt32) (u : Urb)
  | unl (seq target : UInt32)

def Item.cmd (devid : UInt32) : Item → Cmd
  | .sub seq u => u.cmd devid seq
  | .unl seq target => unlinkCmd devid seq target

def Item.sub? : Item → Option (UInt32 × Urb)
  | .sub seq u => some (seq, u)
  | _ => none

def Item.unl? : Item → Option (UInt32 × UInt32)
  | .unl seq target => some (seq, target)
  | _ => none

/-- The device is attached; `l1` has been processed, `l2` has not. -/
structure Attached (log : List Handled) (d : Driver) (e : Handled) (l1 l2 : List Handled) (todo : List Item) : Prop where
  split : log = e :: l1 ++ l2
  first : ∃ dev, e.2.1 = .repImport 0 (some dev) ∧ dev.busId = cstr d.busid
  fits : ∀ e ∈ l1, Fits e.1 e.2.1
  heard : d.heard = e.2.2 ++ l1.flatMap (·.2.2) ++ d.rx
  said : d.said = .reqImport 0 d.busid :: l1.map (·.1) ++ todo.map (Item.cmd d.devid)
  pending : d.pending = todo.filterMap Item.sub?
  unlinks : d.unlinks = todo.filterMap Item.unl?
  later : ∀ pre seq t post, todo = pre ++ .unl seq t :: post → ∀ u, Item.sub t u ∉ post
  results : d.done.map (fun g => (g.urb.cmd d.devid g.seq, g.status, g.data)) = l1.filterMap outcome
  issued : d.done.map (fun g => (g.seq, g.urb)) ++ d.pending = d.issued

/-- What is true of a host at all times. -/
structure DInv (log : List Handled) (d : Driver) : Prop where
  busid : d.busid.length = 32
  revoked : d.revoked = []
  state : match d.phase with
    | .importing => d.said = [.reqImport 0 d.busid] ∧ d.pending = [] ∧ d.unlinks = [] ∧ d.done = [] ∧ d.issued = [] ∧
        d.heard = d.rx
    | .refused => (∃ e, log = [e] ∧ e.2.1 = .repImport 1 none) ∧ d.said = [.reqImport 0 d.busid] ∧ d.pending = [] ∧
        d.unlinks = [] ∧ d.done = [] ∧ d.issued = []
    | .attached => ∃ e l1 l2 todo, Attached log d e l1 l2 todo
    | .broken => Overrun log d.heard

/-- What is known of the exchange the host is a part of. -/
structure Known (p : Profile) (log : List Handled) (d : Driver) : Prop where
  ok : Log p log
  modest : ∀ e ∈ log, Modest e.2.1
  cmds : log.map (·.1) <+: d.said
  heard : d.heard <+: log.flatMap (·.2.2)

theorem cstr_cstr (b : Bytes) : cstr (cstr b) = cstr b := by
  refine takeWhile_all _ fun x hx => ?_
  induction b with
  | nil => simp [cstr] at hx
  | cons a b ih =>
    simp only [cstr, List.takeWhile_cons] at hx
    split at hx
    · rename_i ha
      rcases List.mem_cons.mp hx with rfl | hx
      · simpa using ha
      · exact ih hx
    · simp at hx

theorem cstr_length (b : Bytes) : (cstr b).length ≤ b.length := (List.takeWhile_prefix _).length_le

/-- The import reply. -/
theorem import_inv {p : Profile} {log : List Handled} {d d' : Driver} (h : DInv log d) (hE : Known p log d)
    (hph : d.phase = .importing) (hn : d.next = some d') :
    DInv log d' ∧ d'.said = d.said ∧ d'.heard = d.heard := by
  have hs := h.state
  rw [hph] at hs
  obtain ⟨h1, h2, h3, h4, h5, h6⟩ := hs
  simp only [Driver.next, hph, Driver.import] at hn
  split at hn
  · cases hn
  rename_i hlen
  have hpre := hE.heard
  rw [h6] at hpre
  cases hlog : log with
  | nil =>
    rw [hlog] at hpre
    have := List.prefix_nil.mp hpre
    rw [this] at hlen; simp at hlen
  | cons e rest =>
    have hcm := hE.cmds
    rw [hlog, h1, List.map_cons, List.cons_prefix_cons] at hcm
    obtain ⟨hec, hrest⟩ := hcm
    have hrest : rest = [] := by
      have := List.prefix_nil.mp hrest
      simpa using this
    subst hrest
    rw [hlog] at hpre
    obtain ⟨ha, hbytes, hid⟩ := hE.ok e (by rw [hlog]; simp)
    rw [hec] at ha
    simp only [List.flatMap_cons, List.flatMap_nil, List.append_nil] at hpre
    have f : ∀ i k, i + k ≤ 8 → field d.rx i k = field e.2.2 i k := fun i k hik => field_prefix hpre i k (by omega)
    rcases ha with ⟨dev, hr⟩ | hr
    · rw [hr] at hbytes
      have hid := hid 0 d.busid dev hec hr
      obtain ⟨g1, g2, g3, g4, g5⟩ := granted_fields hbytes []
      rw [List.append_nil] at g1 g2 g3 g5
      rw [if_neg (by rw [f 0 2 (by omega), f 2 2 (by omega), g1, g2]; simp),
        if_neg (by rw [f 4 4 (by omega), g3]; simp)] at hn
      split at hn
      · cases hn
      rename_i hlen2
      have hb : cstr ((d.rx.drop 264).take 32) = cstr d.busid := by
        rw [slice_prefix hpre 264 32 (by omega), g5, hid, List.take_of_length_le (by have := cstr_length d.busid; rw [h.busid] at this; exact this), cstr_cstr]
      rw [if_neg (by rw [hb]; simp)] at hn
      cases hn
      have hsp := prefix_split (a := d.rx) (b := e.2.2) (c := []) (by simpa using hpre) (by omega)
      rw [g4] at hsp
      refine ⟨⟨h.busid, h.revoked, ⟨e, [], [], [], ?_⟩⟩, rfl, rfl⟩
      refine ⟨by simp, ⟨dev, hr, hid⟩, by simp, ?_, by simpa using h1, h2, h3, ?_, by simp [h4], by simp [h4, h5, h2]⟩
      · show d.heard = e.2.2 ++ [].flatMap _ ++ d.rx.drop 320
        rw [h6]; simpa using hsp.1
      · intro pre seq t post hp
        simp at hp
    · rw [hr] at hbytes
      obtain ⟨g1, g2, g3, g4⟩ := refused_fields hbytes []
      rw [List.append_nil] at g1 g2 g3
      rw [if_neg (by rw [f 0 2 (by omega), f 2 2 (by omega), g1, g2]; simp),
        if_pos (by rw [f 4 4 (by omega), g3]; simp)] at hn
      cases hn
      exact ⟨⟨h.busid, h.revoked, ⟨⟨e, rfl, hr⟩, h1, h2, h3, h4, h5⟩⟩, rfl, rfl⟩

/-- What comes next, if enough of it has been received. -/
theorem attached_next {p : Profile} {log : List Handled} {d : Driver} {e e2 : Handled} {l1 l2 : List Handled} {todo : List Item}
    (h : DInv log d) (hE : Known p log d) (hph : d.phase = .attached) (hA : Attached log d e l1 (e2 :: l2) todo)
    (hlen : 48 ≤ d.rx.length) :
    (¬ Fits e2.1 e2.2.1 → d.next = some { d with phase := .broken }) ∧
    (Fits e2.1 e2.2.1 → d.rx.length < e2.2.2.length → d.next = none) ∧
    (Fits e2.1 e2.2.1 → e2.2.2.length ≤ d.rx.length → ∃ d' todo', d.next = some d' ∧ d'.phase = .attached ∧
      d'.busid = d.busid ∧ d'.revoked = [] ∧ d'.said = d.said ∧ d'.heard = d.heard ∧
      Attached log d' e (l1 ++ [e2]) l2 todo') := by
  obtain ⟨a1, a2, a3, a4, a5, a6, a7, a8, a9, a10⟩ := hA
  have hcm := hE.cmds
  obtain ⟨ha, hbytes, _⟩ := hE.ok e2 (by rw [a1]; simp)
  have hm := hE.modest e2 (by rw [a1]; simp)
  have he0 : e.1 = .reqImport 0 d.busid := by
    rw [a1, a5] at hcm
    simp only [List.cons_append, List.map_cons, List.cons_prefix_cons] at hcm
    exact hcm.1
  have hrx : d.rx <+: e2.2.2 ++ l2.flatMap (·.2.2) := by
    have := hE.heard
    rw [a4, a1] at this
    simp only [List.cons_append, List.flatMap_cons, List.flatMap_append, List.append_assoc] at this
    rw [List.prefix_append_right_inj, List.prefix_append_right_inj] at this
    exact this
  have f : ∀ i k, i + k ≤ 48 → field d.rx i k = field (e2.2.2 ++ l2.flatMap (·.2.2)) i k := fun i k hik =>
    field_prefix hrx i k (by omega)
  have htodo : ∃ it todo', todo = it :: todo' ∧ e2.1 = it.cmd d.devid := by
    rw [a1, a5] at hcm
    simp only [List.cons_append, List.map_cons, List.map_append, List.cons_prefix_cons] at hcm
    have := (List.prefix_append_right_inj _).mp hcm.2
    cases todo with
    | nil => simp at this
    | cons it todo' =>
      simp only [List.map_cons, List.cons_prefix_cons] at this
      exact ⟨it, todo', rfl, this.1⟩
  obtain ⟨it, todo', rfl, hcmd⟩ := htodo
  have hlater : ∀ pre seq t post, todo' = pre ++ .unl seq t :: post → ∀ u, Item.sub t u ∉ post := fun pre seq t post hp =>
    a8 (it :: pre) seq t post (by rw [hp]; rfl)
  have hsplit : e2.2.2.length ≤ d.rx.length → d.rx = e2.2.2 ++ d.rx.drop e2.2.2.length := fun hl => (prefix_split hrx hl).1
  cases it with
  | sub seq u =>
    rw [hcmd] at ha
    -- the reply
    obtain ⟨st, al, buf, hr, hal⟩ : ∃ st al buf, e2.2.1 = .retSubmit ⟨3, seq, d.devid, if u.input then 1 else 0, u.ep⟩ st al 0 0 0
        buf [] ∧ al = UInt32.ofNat buf.length := by
      rcases ha with ⟨buf, hr⟩ | hr
      · exact ⟨_, _, buf, hr, rfl⟩
      · exact ⟨_, _, [], hr, rfl⟩
    rw [hr] at hbytes hm
    obtain ⟨g1, g2, g3, g4, g5, g6, g7⟩ := submit_fields hbytes (l2.flatMap (·.2.2))
    obtain ⟨m1, m2⟩ := hm
    have hal' : al.toNat = buf.length := by
      rw [hal, UInt32.toNat_ofNat']; omega
    have hfol : u.follows (field d.rx 24 4) = buf.length := by
      rw [f 24 4 (by omega), g4, hal', Urb.follows]
      split
      · rfl
      · rename_i hne
        rcases m2 with m2 | m2
        · cases hu : u.input with
          | true => exact absurd ⟨hu, m1⟩ hne
          | false => rw [hu] at m2; simp at m2
        · rw [m2]; rfl
    have hnp : field d.rx 32 4 = 0 := by rw [f 32 4 (by omega), g5]
    have hseq : field d.rx 4 4 = seq.toNat := by rw [f 4 4 (by omega), g2]
    have hfits : Fits e2.1 e2.2.1 ↔ buf.length ≤ u.len.toNat := by
      rw [hcmd, hr]
      show (if ((if u.input then 1 else 0 : UInt32)).toNat = 1 then _ else _) ↔ _
      cases hu : u.input with
      | true => simp [m1]
      | false =>
        rw [hu] at m2
        have : buf = [] := by
          rcases m2 with m2 | m2
          · simp at m2
          · exact m2
        simp [this]
    have hpend : d.pending = (seq, u) :: todo'.filterMap Item.sub? := a6
    have hfind : d.pending.find? (fun e => e.1.toNat = field d.rx 4 4) = some (seq, u) := by
      rw [hpend, List.find?_cons_of_pos (by simp [hseq])]
    have herase : d.pending.eraseP (fun e => e.1.toNat = field d.rx 4 4) = todo'.filterMap Item.sub? := by
      rw [hpend, List.eraseP_cons_of_pos (by simp [hseq])]
    have hnext : d.next = d.submitted := by
      simp only [Driver.next, hph]
      rw [if_neg (by omega), if_pos (by rw [f 0 4 (by omega), g1]; rfl)]
    rw [hnext]
    simp only [Driver.submitted, hfind, hfol, hnp, herase]
    refine ⟨fun hn => ?_, fun hf hl => ?_, fun hf hl => ?_⟩
    · rw [hfits] at hn
      rw [if_pos (by omega)]
    · rw [hfits] at hf
      rw [if_neg (by omega), if_pos (by omega)]
    · rw [hfits] at hf
      rw [if_neg (by omega), if_neg (by omega)]
      refine ⟨_, todo', rfl, hph, rfl, h.revoked, rfl, rfl, ?_⟩
      have hdata : (d.rx.drop 48).take buf.length = buf := by
        rw [slice_prefix hrx 48 buf.length (by omega), List.drop_append_of_le_length (by omega), g7]
        simp
      refine ⟨by rw [a1]; simp, a2, ?_, ?_, ?_, rfl, a7, hlater, ?_, ?_⟩
      · intro e' he'
        rw [List.mem_append, List.mem_singleton] at he'
        rcases he' with he' | rfl
        · exact a3 e' he'
        · rw [hfits]; exact hf
      · have := hsplit hl
        rw [g6] at this
        dsimp only
        rw [a4, List.flatMap_append, Nat.mul_zero, Nat.add_zero]
        conv => lhs; rw [this]
        simp
      · dsimp only
        rw [a5]; simp [hcmd]
      · dsimp only
        rw [List.map_append, List.filterMap_append, a9, List.map_cons, List.map_nil, hdata, f 20 4 (by omega), g3]
        have : outcome e2 = some (u.cmd d.devid seq, st.toNat, buf) := by
          obtain ⟨c2, r2, b2⟩ := e2
          dsimp only at hcmd hr
          subst hcmd; subst hr
          rfl
        simp [this]
      · dsimp only
        rw [← a10, hpend]; simp
  | unl seq target =>
    rw [hcmd] at ha
    have hr : e2.2.1 = .retUnlink ⟨4, seq, d.devid, 0, 0⟩ 0 := ha
    rw [hr] at hbytes
    obtain ⟨g1, g2, g3⟩ := unlink_fields hbytes (l2.flatMap (·.2.2))
    have hfits : Fits e2.1 e2.2.1 := by rw [hcmd, hr]; trivial
    have hseq : field d.rx 4 4 = seq.toNat := by rw [f 4 4 (by omega), g2]
    have hun : d.unlinks = (seq, target) :: todo'.filterMap Item.unl? := a7
    have hfind : d.unlinks.find? (fun e => e.1.toNat = field d.rx 4 4) = some (seq, target) := by
      rw [hun, List.find?_cons_of_pos (by simp [hseq])]
    have herase : d.unlinks.eraseP (fun e => e.1.toNat = field d.rx 4 4) = todo'.filterMap Item.unl? := by
      rw [hun, List.eraseP_cons_of_pos (by simp [hseq])]
    have hpend : d.pending = todo'.filterMap Item.sub? := a6
    have hnone : d.pending.find? (fun e => e.1 = target) = none := by
      rw [List.find?_eq_none]
      intro x hx
      rw [hpend, List.mem_filterMap] at hx
      obtain ⟨it, hit, hs⟩ := hx
      cases it with
      | unl a b => cases hs
      | sub s u =>
        cases hs
        simp only [decide_eq_true_eq]
        rintro rfl
        exact a8 [] seq s todo' rfl u hit
    have hnext : d.next = some d.unlinked := by
      simp only [Driver.next, hph]
      rw [if_neg (by omega), if_neg (by rw [f 0 4 (by omega), g1]; simp), if_pos (by rw [f 0 4 (by omega), g1]; rfl)]
    refine ⟨fun hn => absurd hfits hn, fun _ hl => by omega, fun _ hl => ?_⟩
    rw [hnext]
    simp only [Driver.unlinked, hfind, hnone, herase]
    refine ⟨_, todo', rfl, hph, rfl, h.revoked, rfl, rfl, ?_⟩
    refine ⟨by rw [a1]; simp, a2, ?_, ?_, ?_, hpend, rfl, hlater, ?_, a10⟩
    · intro e' he'
      rw [List.mem_append, List.mem_singleton] at he'
      rcases he' with he' | rfl
      · exact a3 e' he'
      · exact hfits
    · have := hsplit hl
      rw [g3] at this
      dsimp only
      rw [a4, List.flatMap_append]
      conv => lhs; rw [this]
      simp
    · dsimp only
      rw [a5]; simp [hcmd]
    · dsimp only
      rw [List.filterMap_append, a9]
      have : outcome e2 = none := by
        obtain ⟨c2, r2, b2⟩ := e2
        dsimp only at hcmd hr
        subst hcmd; subst hr
        rfl
      simp [this]

/-- Without a further reply there is nothing to process. -/
theorem attached_rest {p : Profile} {log : List Handled} {d : Driver} {e : Handled} {l1 : List Handled} {todo : List Item}
    (hE : Known p log d) (hA : Attached log d e l1 [] todo) : d.rx = [] := by
  have := hE.heard
  rw [hA.heard, hA.split] at this
  simp only [List.append_nil, List.flatMap_cons] at this
  have := (List.prefix_append_right_inj (e.2.2 ++ l1.flatMap (·.2.2)) (l₂ := [])).mp (by simpa using this)
  exact List.prefix_nil.mp this

theorem next_inv {p : Profile} {log : List Handled} {d d' : Driver} (h : DInv log d) (hE : Known p log d)
    (hn : d.next = some d') : DInv log d' ∧ d'.said = d.said ∧ d'.heard = d.heard := by
  cases hph : d.phase with
  | importing => exact import_inv h hE hph hn
  | refused => simp only [Driver.next, hph] at hn; cases hn
  | broken => simp only [Driver.next, hph] at hn; cases hn
  | attached =>
    have hs := h.state
    rw [hph] at hs
    obtain ⟨e, l1, l2, todo, hA⟩ := hs
    have hlen : 48 ≤ d.rx.length := by
      simp only [Driver.next, hph] at hn
      split at hn
      · cases hn
      · omega
    cases l2 with
    | nil => rw [attached_rest hE hA] at hlen; simp at hlen
    | cons e2 l2 =>
      obtain ⟨h1, h2, h3⟩ := attached_next h hE hph hA hlen
      by_cases hf : Fits e2.1 e2.2.1
      · by_cases hl : d.rx.length < e2.2.2.length
        · rw [h2 hf hl] at hn; cases hn
        · obtain ⟨d2, todo', k1, k2, k3, k4, k5, k6, k7⟩ := h3 hf (by omega)
          rw [k1] at hn; cases hn
          exact ⟨⟨by rw [k3]; exact h.busid, k4, by rw [k2]; exact ⟨e, _, _, _, k7⟩⟩, k5, k6⟩
      · rw [h1 hf] at hn; cases hn
        refine ⟨⟨h.busid, h.revoked, ?_⟩, rfl, rfl⟩
        refine ⟨e :: l1, e2, l2, hA.split, ?_, hf, ?_⟩
        · intro e' he'
          rcases List.mem_cons.mp he' with rfl | he'
          · obtain ⟨dev, hd, _⟩ := hA.first
            rw [hd]
            cases e'.1 <;> trivial
          · exact hA.fits e' he'
        · dsimp only
          rw [hA.heard]
          simp only [List.flatMap_cons, List.length_append]
          omega

theorem Known.same {p : Profile} {log : List Handled} {d d' : Driver} (h : Known p log d) (h1 : d'.said = d.said)
    (h2 : d'.heard = d.heard) : Known p log d' :=
  ⟨h.ok, h.modest, by rw [h1]; exact h.cmds, by rw [h2]; exact h.heard⟩

theorem pump_inv {p : Profile} {log : List Handled} (n : Nat) : ∀ {d : Driver}, DInv log d → Known p log d →
    DInv log (d.pump n) ∧ (d.pump n).said = d.said ∧ (d.pump n).heard = d.heard := by
  induction n with
  | zero => intro d h _; exact ⟨h, rfl, rfl⟩
  | succ n ih =>
    intro d h hE
    simp only [Driver.pump]
    cases hn : d.next with
    | none => exact ⟨h, rfl, rfl⟩
    | some d' =>
      obtain ⟨h1, h2, h3⟩ := next_inv h hE hn
      obtain ⟨g1, g2, g3⟩ := ih h1 (hE.same h2 h3)
      exact ⟨g1, g2.trans h2, g3.trans h3⟩

/-- Nothing but receiving changes what was received, ... -/
theorem next_ghosts {d d' : Driver} (hn : d.next = some d') : d'.said = d.said ∧ d'.heard = d.heard ∧ d'.busid = d.busid ∧
    d'.devid = d.devid ∧ d'.issued = d.issued := by
  simp only [Driver.next, Driver.import, Driver.submitted, Driver.unlinked] at hn
  repeat' split at hn
  all_goals first | (cases hn; done) | (cases hn; exact ⟨rfl, rfl, rfl, rfl, rfl⟩) | skip
  all_goals
    simp only [Option.some.injEq] at hn
    subst hn
    exact ⟨rfl, rfl, rfl, rfl, rfl⟩

theorem pump_ghosts (n : Nat) : ∀ {d : Driver}, (d.pump n).said = d.said ∧ (d.pump n).heard = d.heard ∧
    (d.pump n).busid = d.busid ∧ (d.pump n).devid = d.devid ∧ (d.pump n).issued = d.issued := by
  induction n with
  | zero => intro d; exact ⟨rfl, rfl, rfl, rfl, rfl⟩
  | succ n ih =>
    intro d
    simp only [Driver.pump]
    cases hn : d.next with
    | none => exact ⟨rfl, rfl, rfl, rfl, rfl⟩
    | some d' =>
      obtain ⟨h1, h2, h3, h4, h5⟩ := next_ghosts hn
      obtain ⟨g1, g2, g3, g4, g5⟩ := ih (d := d')
      exact ⟨g1.trans h1, g2.trans h2, g3.trans h3, g4.trans h4, g5.trans h5⟩

theorem hear_ghosts (d : Driver) (bs : Bytes) : (d.hear bs).said = d.said ∧ (d.hear bs).heard = d.heard ++ bs ∧
    (d.hear bs).busid = d.busid ∧ (d.hear bs).devid = d.devid ∧ (d.hear bs).issued = d.issued :=
  pump_ghosts _

theorem moves_mono {d d' : Driver} (h : d.Moves d') : d.said <+: d'.said ∧ d.heard <+: d'.heard ∧ d.issued <+: d'.issued := by
  induction h with
  | refl => exact ⟨List.prefix_refl _, List.prefix_refl _, List.prefix_refl _⟩
  | submit h seq u hp hf hw ih =>
    exact ⟨ih.1.trans (List.prefix_append _ _), ih.2.1, ih.2.2.trans (List.prefix_append _ _)⟩
  | unlink h seq t hp hf ht ih => exact ⟨ih.1.trans (List.prefix_append _ _), ih.2⟩
  | hear h bs ih =>
    obtain ⟨h1, h2, _, _, h5⟩ := hear_ghosts _ bs
    exact ⟨by rw [h1]; exact ih.1, by rw [h2]; exact ih.2.1.trans (List.prefix_append _ _), by rw [h5]; exact ih.2.2⟩

/-- The driver only says well-formed things. -/
theorem moves_wellFormed {d d' : Driver} (h : d.Moves d') (hw : ∀ c ∈ d.said, WellFormed true c) :
    ∀ c ∈ d'.said, WellFormed true c := by
  induction h with
  | refl => exact hw
  | submit h seq u hp hf hw' ih =>
    intro c hc
    rw [List.mem_append, List.mem_singleton] at hc
    rcases hc with hc | rfl
    · exact ih c hc
    · exact hw'
  | unlink h seq t hp hf ht ih =>
    intro c hc
    rw [List.mem_append, List.mem_singleton] at hc
    rcases hc with hc | rfl
    · exact ih c hc
    · exact ⟨rfl, fun _ => by simp⟩
  | hear h bs ih => rw [(hear_ghosts _ bs).1]; exact ih

/-- More becomes known of the exchange. -/
theorem DInv.extend {log more : List Handled} {d : Driver} (h : DInv log d) (hc : (log ++ more).map (·.1) <+: d.said) :
    DInv (log ++ more) d := by
  refine ⟨h.busid, h.revoked, ?_⟩
  have hs := h.state
  cases hph : d.phase with
  | importing => rw [hph] at hs; exact hs
  | refused =>
    rw [hph] at hs
    obtain ⟨⟨e, rfl, he⟩, h1, h2⟩ := hs
    rw [h1] at hc
    have hm : more = [] := by
      have := hc.length_le
      simp only [List.map_append, List.length_append, List.length_map, List.length_cons, List.length_nil] at this
      exact List.length_eq_zero_iff.mp (by omega)
    subst hm
    exact ⟨⟨e, rfl, he⟩, h1, h2⟩
  | attached =>
    rw [hph] at hs
    obtain ⟨e, l1, l2, todo, hA⟩ := hs
    exact ⟨e, l1, l2 ++ more, todo, ⟨by rw [hA.split]; simp, hA.first, hA.fits, hA.heard, hA.said, hA.pending, hA.unlinks,
      hA.later, hA.results, hA.issued⟩⟩
  | broken =>
    rw [hph] at hs
    obtain ⟨pre, e, post, h1, h2⟩ := hs
    exact ⟨pre, e, post ++ more, by rw [h1]; simp, h2⟩

theorem moves_inv {p : Profile} {log : List Handled} {d d' : Driver} (h : d.Moves d') (hd : DInv log d)
    (hL : Log p log) (hm : ∀ e ∈ log, Modest e.2.1) (hc : log.map (·.1) <+: d.said)
    (hh : d'.heard <+: log.flatMap (·.2.2)) : DInv log d' := by
  induction h with
  | refl => exact hd
  | @submit d' h seq u hp hf hw ih =>
    obtain ⟨g1, g2, g3⟩ := ih hh
    refine ⟨g1, g2, ?_⟩
    dsimp only
    rw [hp] at g3 ⊢
    obtain ⟨e, l1, l2, todo, hA⟩ := g3
    refine ⟨e, l1, l2, todo ++ [.sub seq u], hA.split, hA.first, hA.fits, hA.heard, ?_, ?_, ?_, ?_, hA.results, ?_⟩
    · dsimp only; rw [hA.said]; simp [Item.cmd]
    · dsimp only; rw [hA.pending]; simp [Item.sub?]
    · dsimp only; rw [hA.unlinks]; simp [Item.unl?]
    · intro pre s t post hp' v hv
      rcases List.eq_nil_or_concat post with rfl | ⟨post', x, rfl⟩
      · simp at hv
      · rw [List.concat_eq_append] at hp' hv
        have hp2 : todo ++ [Item.sub seq u] = (pre ++ .unl s t :: post') ++ [x] := by rw [hp']; simp
        obtain ⟨q1, q2⟩ := List.append_inj' hp2 rfl
        simp only [List.cons.injEq, and_true] at q2
        rw [List.mem_append, List.mem_singleton] at hv
        rcases hv with hv | hv
        · exact hA.later pre s t post' q1 v hv
        · rw [← q2] at hv
          have ht : t = seq := by cases hv; rfl
          have : (s, t) ∈ d'.unlinks := by
            rw [hA.unlinks, q1, List.mem_filterMap]
            exact ⟨.unl s t, by simp, rfl⟩
          exact (hf.2 _ this).2 ht
    · dsimp only; rw [← hA.issued]; simp
  | @unlink d' h seq t hp hf ht ih =>
    obtain ⟨g1, g2, g3⟩ := ih hh
    refine ⟨g1, g2, ?_⟩
    dsimp only
    rw [hp] at g3 ⊢
    obtain ⟨e, l1, l2, todo, hA⟩ := g3
    refine ⟨e, l1, l2, todo ++ [.unl seq t], hA.split, hA.first, hA.fits, hA.heard, ?_, ?_, ?_, ?_, hA.results, hA.issued⟩
    · dsimp only; rw [hA.said]; simp [Item.cmd]
    · dsimp only; rw [hA.pending]; simp [Item.sub?]
    · dsimp only; rw [hA.unlinks]; simp [Item.unl?]
    · intro pre s t' post hp' v hv
      rcases List.eq_nil_or_concat post with rfl | ⟨post', x, rfl⟩
      · simp at hv
      · rw [List.concat_eq_append] at hp' hv
        have hp2 : todo ++ [Item.unl seq t] = (pre ++ .unl s t' :: post') ++ [x] := by rw [hp']; simp
        obtain ⟨q1, q2⟩ := List.append_inj' hp2 rfl
        simp only [List.cons.injEq, and_true] at q2
        rw [List.mem_append, List.mem_singleton] at hv
        rcases hv with hv | hv
        · exact hA.later pre s t' post' q1 v hv
        · rw [← q2] at hv; cases hv
  | @hear d' h bs ih =>
    obtain ⟨k1, k2, _⟩ := hear_ghosts d' bs
    rw [k2] at hh
    have g := ih ((List.prefix_append _ _).trans hh)
    have hc' : log.map (·.1) <+: d'.said := hc.trans (moves_mono h).1
    refine (pump_inv (p := p) _ (d := { d' with rx := d'.rx ++ bs, heard := d'.heard ++ bs }) ?_ ⟨hL, hm, hc', hh⟩).1
    refine ⟨g.busid, g.revoked, ?_⟩
    have hs := g.state
    dsimp only
    cases hph : d'.phase with
    | importing =>
      rw [hph] at hs
      obtain ⟨h1, h2, h3, h4, h5, h6⟩ := hs
      exact ⟨h1, h2, h3, h4, h5, by rw [h6]⟩
    | refused => rw [hph] at hs; exact hs
    | attached =>
      rw [hph] at hs
      obtain ⟨e, l1, l2, todo, hA⟩ := hs
      exact ⟨e, l1, l2, todo, hA.split, hA.first, hA.fits, by dsimp only; rw [hA.heard, List.append_assoc], hA.said, hA.pending,
        hA.unlinks, hA.later, hA.results, hA.issued⟩
    | broken =>
      rw [hph] at hs
      obtain ⟨pre, e, post, h1, h2, h3, h4⟩ := hs
      exact ⟨pre, e, post, h1, h2, h3, by rw [List.length_append]; omega⟩

/-! ## Everything that can be processed is processed -/

/-- What there is to process. -/
def _root_.Usbip.Spec.Driver.work (d : Driver) : Nat :=
  match d.phase with
  | .importing => d.rx.length + 1
  | .attached => d.rx.length + 1
  | _ => 0

theorem next_work {d d' : Driver} (hn : d.next = some d') : d'.work < d.work := by
  cases hph : d.phase with
  | refused => simp only [Driver.next, hph] at hn; cases hn
  | broken => simp only [Driver.next, hph] at hn; cases hn
  | importing =>
    simp only [Driver.next, hph, Driver.import] at hn
    repeat' split at hn
    all_goals first | (cases hn; done) | skip
    all_goals
      simp only [Option.some.injEq] at hn
      subst hn
      simp only [Driver.work, hph, List.length_drop]
      omega
  | attached =>
    simp only [Driver.next, hph, Driver.submitted, Driver.unlinked] at hn
    repeat' split at hn
    all_goals first | (cases hn; done) | skip
    all_goals
      simp only [Option.some.injEq] at hn
      subst hn
      simp only [Driver.work, hph, List.length_drop]
      omega

theorem pump_quiet (n : Nat) : ∀ {d : Driver}, d.work ≤ n → (d.pump n).next = none := by
  induction n with
  | zero =>
    intro d h
    cases hn : d.next with
    | none => exact hn
    | some d' => have := next_work hn; omega
  | succ n ih =>
    intro d h
    simp only [Driver.pump]
    cases hn : d.next with
    | none => exact hn
    | some d' => have := next_work hn; exact ih (by omega)

theorem moves_quiet {d d' : Driver} (h : d.Moves d') (hq : d.next = none) : d'.next = none := by
  induction h with
  | refl => exact hq
  | @submit d' h seq u hp hf hw ih =>
    simp only [Driver.next, hp] at ih ⊢
    repeat' split at ih
    all_goals first | (cases ih; done) | skip
    · rename_i hl; rw [if_pos hl]
    · rename_i hl h3
      rw [if_neg hl, if_pos h3]
      simp only [Driver.submitted] at ih ⊢
      cases hfd : d'.pending.find? (fun e => e.1.toNat = field d'.rx 4 4) with
      | none => rw [hfd] at ih; cases ih
      | some v =>
        rw [List.find?_append, hfd, Option.some_or]
        rw [hfd] at ih
        dsimp only at ih ⊢
        repeat' split at ih
        all_goals first | (cases ih; done) | skip
        rename_i h4 h5
        rw [if_neg h4, if_pos h5]
  | @unlink d' h seq t hp hf ht ih =>
    simp only [Driver.next, hp] at ih ⊢
    repeat' split at ih
    all_goals first | (cases ih; done) | skip
    · rename_i hl; rw [if_pos hl]
    · rename_i hl h3
      rw [if_neg hl, if_pos h3]
      simp only [Driver.submitted] at ih ⊢
      cases hfd : d'.pending.find? (fun e => e.1.toNat = field d'.rx 4 4) with
      | none => rw [hfd] at ih; cases ih
      | some v =>
        rw [hfd] at ih
        dsimp only at ih ⊢
        repeat' split at ih
        all_goals first | (cases ih; done) | skip
        rename_i h4 h5
        rw [if_neg h4, if_pos h5]
  | @hear d' h bs ih =>
    refine pump_quiet _ ?_
    simp only [Driver.work, List.length_append]
    split <;> omega

end Usbip
