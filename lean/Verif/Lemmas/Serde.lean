import Verif.Spec.Serde
import Mathlib.Data.List.Nodup
import Mathlib.Data.List.Perm.Basic
/-!
# Lemmas: reading documents back
-/

namespace Usbip

open Spec

theorem reorderedList_refl : ∀ ds, ReorderedList ds ds
  | [] => .nil
  | d :: ds => .cons (.same d) (reorderedList_refl ds)

theorem reorderedEntries_refl : ∀ es, ReorderedEntries es es
  | [] => .nil
  | (k, d) :: es => .cons k (.same d) (reorderedEntries_refl es)

theorem of_int {n : Nat} {d : Doc} (h : Reordered (.int n) d) : d = .int n := by
  cases h; rfl

theorem of_null {d : Doc} (h : Reordered .null d) : d = .null := by
  cases h; rfl

theorem of_str {s : String} {d : Doc} (h : Reordered (.str s) d) : d = .str s := by
  cases h; rfl

theorem of_utf8 {s : Bytes} {d : Doc} (h : Reordered (.utf8 s) d) : d = .utf8 s := by
  cases h; rfl

theorem of_arr {as : List Doc} {d : Doc} (h : Reordered (.arr as) d) : ∃ bs, d = .arr bs ∧ ReorderedList as bs := by
  cases h with
  | same => exact ⟨as, rfl, reorderedList_refl as⟩
  | arr h => exact ⟨_, rfl, h⟩

theorem of_obj {as : List (String × Doc)} {d : Doc} (h : Reordered (.obj as) d) :
    ∃ bs cs, d = .obj cs ∧ ReorderedEntries as bs ∧ bs.Perm cs := by
  cases h with
  | same => exact ⟨as, as, rfl, reorderedEntries_refl as, List.Perm.refl _⟩
  | obj h hp => exact ⟨_, _, rfl, h, hp⟩

theorem entries_keys : ∀ {as bs : List (String × Doc)}, ReorderedEntries as bs → bs.map (·.1) = as.map (·.1)
  | _, _, .nil => rfl
  | _, _, .cons k _ t => by simp [entries_keys t]

theorem pick_of {name : String} {v : Doc} : ∀ {es : List (String × Doc)}, (es.map (·.1)).Nodup → (name, v) ∈ es →
    es.filter (fun e => e.1 = name) = [(name, v)]
  | [], _, h => by simp at h
  | (k, a) :: es, hn, h => by
    simp only [List.map_cons, List.nodup_cons] at hn
    rcases List.mem_cons.mp h with h | h
    · injection h with h1 h2
      subst h1 h2
      rw [List.filter_cons_of_pos (by simp)]
      congr 1
      rw [List.filter_eq_nil_iff]
      intro e he
      simp only [decide_eq_true_eq]
      intro hk
      exact hn.1 (hk ▸ List.mem_map_of_mem (f := (·.1)) he)
    · have hk : k ≠ name := by
        rintro rfl
        exact hn.1 (List.mem_map_of_mem (f := (·.1)) h)
      rw [List.filter_cons_of_neg (by simpa using hk)]
      exact pick_of hn.2 h

theorem pick_perm {name : String} {v : Doc} {bs cs : List (String × Doc)} (hn : (bs.map (·.1)).Nodup)
    (hp : bs.Perm cs) (h : (name, v) ∈ bs) : pick name cs = some v := by
  have h1 := pick_of ((hp.map (·.1)).nodup_iff.mp hn) (hp.mem_iff.mp h)
  simp [pick, h1]

theorem picks {cs : List (String × Doc)} : ∀ {as bs : List (String × Doc)}, ReorderedEntries as bs →
    (∀ e ∈ bs, pick e.1 cs = some e.2) →
    ∃ ds, (as.map (·.1)).mapM (fun n => pick n cs) = some ds ∧ ReorderedList (as.map (·.2)) ds
  | _, _, .nil, _ => ⟨[], rfl, .nil⟩
  | _, _, .cons (b := b) k h t, hc => by
    obtain ⟨ds, h1, h2⟩ := picks t (fun e he => hc e (List.mem_cons_of_mem _ he))
    have h0 := hc _ List.mem_cons_self
    dsimp only at h0
    refine ⟨b :: ds, ?_, .cons h h2⟩
    simp [List.mapM_cons, h0, h1]

/-- The fields of a struct are found again. -/
theorem fields_back {es : List (String × Doc)} {d : Doc} (h : Reordered (.obj es) d) (hn : (es.map (·.1)).Nodup) :
    ∃ ds, fieldsOf (es.map (·.1)) d = some ds ∧ ReorderedList (es.map (·.2)) ds := by
  obtain ⟨bs, cs, rfl, hb, hp⟩ := of_obj h
  have hk : (bs.map (·.1)).Nodup := by rw [entries_keys hb]; exact hn
  exact picks hb (fun e he => pick_perm hk hp he)

theorem u8_back {b : UInt8} {d : Doc} (h : Reordered (.int b.toNat) d) : d.u8 = some b := by
  rw [of_int h]
  simp only [Doc.u8]
  rw [if_pos b.toNat_lt]
  simp

theorem u16_back {b : UInt16} {d : Doc} (h : Reordered (.int b.toNat) d) : d.u16 = some b := by
  rw [of_int h]
  simp only [Doc.u16]
  rw [if_pos b.toNat_lt]
  simp

theorem u32_back {b : UInt32} {d : Doc} (h : Reordered (.int b.toNat) d) : d.u32 = some b := by
  rw [of_int h]
  simp only [Doc.u32]
  rw [if_pos b.toNat_lt]
  simp

theorem mapM_back {α} {f : α → Doc} {g : Doc → Option α} (hg : Survives f g) : ∀ {as : List α} {ds : List Doc},
    ReorderedList (as.map f) ds → ds.mapM g = some as
  | [], _, h => by cases h; rfl
  | a :: as, _, h => by
    cases h with
    | cons h t =>
      simp [List.mapM_cons, hg _ _ h, mapM_back hg t]

theorem list_back {α} {f : α → Doc} {g : Doc → Option α} (hg : Survives f g) {as : List α} {d : Doc}
    (h : Reordered (.arr (as.map f)) d) : d.list g = some as := by
  obtain ⟨bs, rfl, hb⟩ := of_arr h
  exact mapM_back hg hb

theorem bytes_back {bs : Bytes} {d : Doc} (h : Reordered (docBytes bs) d) : d.bytes = some bs :=
  list_back (f := fun b : UInt8 => .int b.toNat) (fun _ _ h => u8_back h) h

theorem array_back {bs : Bytes} {n : Nat} (hl : bs.length = n) {d : Doc} (h : Reordered (docBytes bs) d) :
    d.array n = some bs := by
  simp [Doc.array, bytes_back h, hl]

theorem unit_back {α} [DecidableEq α] {table : List (String × α)} {a : α} {d : Doc}
    (hf : ∃ s, docUnit table a = .str s ∧ (table.find? (fun e => e.1 = s)).map (·.2) = some a)
    (h : Reordered (docUnit table a) d) : d.unit table = some a := by
  obtain ⟨s, h1, h2⟩ := hf
  rw [h1] at h
  rw [of_str h]
  simpa [Doc.unit, Doc.variant] using h2

/-! ## The structs -/

theorem setup_back : Survives SetupPacket.toDoc SetupPacket.ofDoc := by
  intro s d h
  obtain ⟨ds, h1, h2⟩ := fields_back h (by simp)
  simp only [List.map_cons, List.map_nil] at h1 h2
  obtain _ | ⟨a, _ | ⟨b, _ | ⟨c, _ | ⟨e, _ | ⟨f, _ | _⟩⟩⟩⟩⟩ := h2
  simp [SetupPacket.ofDoc, h1, u8_back a, u8_back b, u16_back c, u16_back e, u16_back f]

theorem endpoint_back : Survives Endpoint.toDoc Endpoint.ofDoc := by
  intro s d h
  obtain ⟨ds, h1, h2⟩ := fields_back h (by simp)
  simp only [List.map_cons, List.map_nil] at h1 h2
  obtain _ | ⟨a, _ | ⟨b, _ | ⟨c, _ | ⟨e, _ | _⟩⟩⟩⟩ := h2
  simp [Endpoint.ofDoc, h1, u8_back a, u8_back b, u16_back c, u8_back e]

theorem version_back : Survives Version.toDoc Version.ofDoc := by
  intro s d h
  obtain ⟨ds, h1, h2⟩ := fields_back h (by simp)
  simp only [List.map_cons, List.map_nil] at h1 h2
  obtain _ | ⟨a, _ | ⟨b, _ | ⟨c, _ | _⟩⟩⟩ := h2
  simp [Version.ofDoc, h1, u8_back a, u8_back b, u8_back c]

theorem header_back : Survives Header.toDoc Header.ofDoc := by
  intro s d h
  obtain ⟨ds, h1, h2⟩ := fields_back h (by simp)
  simp only [List.map_cons, List.map_nil] at h1 h2
  obtain _ | ⟨a, _ | ⟨b, _ | ⟨c, _ | ⟨e, _ | ⟨f, _ | _⟩⟩⟩⟩⟩ := h2
  simp [Header.ofDoc, h1, u32_back a, u32_back b, u32_back c, u32_back e, u32_back f]

theorem six_keys (v : Vector UInt8 6) : ∃ a b c d e f, v = #v[a, b, c, d, e, f] := by
  refine ⟨v[0], v[1], v[2], v[3], v[4], v[5], ?_⟩
  ext i hi
  match i, hi with
  | 0, _ => rfl
  | 1, _ => rfl
  | 2, _ => rfl
  | 3, _ => rfl
  | 4, _ => rfl
  | 5, _ => rfl

theorem report_back : Survives KeyReport.toDoc KeyReport.ofDoc := by
  intro s d h
  obtain ⟨ds, h1, h2⟩ := fields_back h (by simp)
  simp only [List.map_cons, List.map_nil] at h1 h2
  obtain _ | ⟨a, _ | ⟨b, _ | _⟩⟩ := h2
  obtain ⟨m, ks⟩ := s
  obtain ⟨k0, k1, k2, k3, k4, k5, rfl⟩ := six_keys ks
  have hb := array_back (n := 6) (by simp) b
  simp at hb
  simp [KeyReport.ofDoc, h1, u8_back a, hb]

theorem keyboard_back : Survives Keyboard.toDoc Keyboard.ofDoc := by
  intro s d h
  obtain ⟨ds, h1, h2⟩ := fields_back h (by simp)
  simp only [List.map_cons, List.map_nil] at h1 h2
  obtain _ | ⟨a, _ | ⟨b, _ | ⟨c, _ | _⟩⟩⟩ := h2
  have hc := unit_back (by cases s.keyDown <;> simp [docUnit, keyStates]) c
  simp [Keyboard.ofDoc, h1, bytes_back a, list_back report_back b, hc]

/-! ## Enums -/

theorem tag_back {k : String} {c d : Doc} (h : Reordered (.obj [(k, c)]) d) : ∃ c', d = .obj [(k, c')] ∧ Reordered c c' := by
  obtain ⟨bs, cs, rfl, hb, hp⟩ := of_obj h
  obtain _ | ⟨_, h, _ | _⟩ := hb
  rw [List.singleton_perm] at hp
  exact ⟨_, by rw [← hp], h⟩

theorem cmd_back (x : Cmd) (hx : ArraysFit x) (d : Doc) (h : Reordered x.toDoc d) : Cmd.ofDoc d = some x := by
  cases x with
  | reqDevlist st =>
    obtain ⟨c, rfl, h'⟩ := tag_back h
    obtain ⟨ds, h1, h2⟩ := fields_back h' (by simp)
    simp only [List.map_cons, List.map_nil] at h1 h2
    obtain _ | ⟨a, _ | _⟩ := h2
    simp [Cmd.ofDoc, Doc.variant, h1, u32_back a]
  | reqImport st busid =>
    obtain ⟨c, rfl, h'⟩ := tag_back h
    obtain ⟨ds, h1, h2⟩ := fields_back h' (by simp)
    simp only [List.map_cons, List.map_nil] at h1 h2
    obtain _ | ⟨a, _ | ⟨b, _ | _⟩⟩ := h2
    simp [Cmd.ofDoc, Doc.variant, h1, u32_back a, array_back hx b]
  | submit hd fl len sf np iv setup data iso =>
    obtain ⟨c, rfl, h'⟩ := tag_back h
    obtain ⟨ds, h1, h2⟩ := fields_back h' (by simp)
    simp only [List.map_cons, List.map_nil] at h1 h2
    obtain _ | ⟨a, _ | ⟨b, _ | ⟨c, _ | ⟨d, _ | ⟨e, _ | ⟨f, _ | ⟨g, _ | ⟨k, _ | ⟨l, _ | _⟩⟩⟩⟩⟩⟩⟩⟩⟩ := h2
    simp [Cmd.ofDoc, Doc.variant, h1, header_back _ _ a, u32_back b, u32_back c, u32_back d, u32_back e, u32_back f,
      array_back hx g, bytes_back k, bytes_back l]
  | unlink hd n =>
    obtain ⟨c, rfl, h'⟩ := tag_back h
    obtain ⟨ds, h1, h2⟩ := fields_back h' (by simp)
    simp only [List.map_cons, List.map_nil] at h1 h2
    obtain _ | ⟨a, _ | ⟨b, _ | _⟩⟩ := h2
    simp [Cmd.ofDoc, Doc.variant, h1, header_back _ _ a, u32_back b]

theorem array_length {n : Nat} {d : Doc} {bs : Bytes} (h : d.array n = some bs) : bs.length = n := by
  simp only [Doc.array] at h
  split at h
  · split at h
    · injection h with h; subst h; assumption
    · exact absurd h (by simp)
  · exact absurd h (by simp)

/-- Arrays that are read have the length they must have. -/
theorem cmd_arrays {d : Doc} {x : Cmd} (h : Cmd.ofDoc d = some x) : ArraysFit x := by
  unfold Cmd.ofDoc at h
  split at h
  · split at h
    · simp only [Option.bind_eq_bind, Option.bind_eq_some_iff, Option.pure_def, Option.some.injEq] at h
      obtain ⟨_, _, rfl⟩ := h
      trivial
    · exact absurd h (by simp)
  · split at h
    · simp only [Option.bind_eq_bind, Option.bind_eq_some_iff, Option.pure_def, Option.some.injEq] at h
      obtain ⟨_, _, b, hb, rfl⟩ := h
      exact array_length hb
    · exact absurd h (by simp)
  · split at h
    · simp only [Option.bind_eq_bind, Option.bind_eq_some_iff, Option.pure_def, Option.some.injEq] at h
      obtain ⟨_, _, _, _, _, _, _, _, _, _, _, _, b, hb, _, _, _, _, rfl⟩ := h
      exact array_length hb
    · exact absurd h (by simp)
  · split at h
    · simp only [Option.bind_eq_bind, Option.bind_eq_some_iff, Option.pure_def, Option.some.injEq] at h
      obtain ⟨_, _, _, _, rfl⟩ := h
      trivial
    · exact absurd h (by simp)
  · exact absurd h (by simp)

/-! ## Devices -/

theorem survives_inj {α} {f : α → Doc} {g : Doc → Option α} (h : Survives f g) {a b : α} (hr : Reordered (f a) (f b)) :
    a = b := by
  have h1 := h a _ hr
  rw [h b _ (.same _)] at h1
  injection h1 with h1
  exact h1.symm

theorem u8_inj {a b : UInt8} (h : Reordered (.int a.toNat) (.int b.toNat)) : a = b :=
  survives_inj (f := fun x : UInt8 => .int x.toNat) (fun _ _ h => u8_back h) h

theorem u16_inj {a b : UInt16} (h : Reordered (.int a.toNat) (.int b.toNat)) : a = b :=
  survives_inj (f := fun x : UInt16 => .int x.toNat) (fun _ _ h => u16_back h) h

theorem u32_inj {a b : UInt32} (h : Reordered (.int a.toNat) (.int b.toNat)) : a = b :=
  survives_inj (f := fun x : UInt32 => .int x.toNat) (fun _ _ h => u32_back h) h

theorem bytes_inj {a b : Bytes} (h : Reordered (docBytes a) (docBytes b)) : a = b :=
  survives_inj (fun _ _ h => bytes_back h) h

theorem utf8_inj {a b : Bytes} (h : Reordered (.utf8 a) (.utf8 b)) : a = b := by
  have := of_utf8 h
  injection this with this
  exact this.symm

theorem list_inj {α} {f : α → Doc} {g : Doc → Option α} (h : Survives f g) {a b : List α}
    (hr : Reordered (.arr (a.map f)) (.arr (b.map f))) : a = b :=
  survives_inj (f := fun l : List α => .arr (l.map f)) (fun _ _ h' => list_back h h') hr

/-- The fields of two structs of one type, one by one. -/
theorem fields_inj {es fs : List (String × Doc)} (h : Reordered (.obj es) (.obj fs)) (hn : (es.map (·.1)).Nodup)
    (hk : fs.map (·.1) = es.map (·.1)) : ReorderedList (es.map (·.2)) (fs.map (·.2)) := by
  obtain ⟨ds, h1, h2⟩ := fields_back h hn
  have h3 : fieldsOf (fs.map (·.1)) (.obj fs) = some (fs.map (·.2)) := by
    have hp : ∀ e ∈ fs, pick e.1 fs = some e.2 := fun e he =>
      pick_perm (by rw [hk]; exact hn) (List.Perm.refl _) he
    show (fs.map (·.1)).mapM (fun n => pick n fs) = some (fs.map (·.2))
    have : ∀ gs : List (String × Doc), (∀ e ∈ gs, pick e.1 fs = some e.2) →
        (gs.map (·.1)).mapM (fun n => pick n fs) = some (gs.map (·.2)) := by
      intro gs
      induction gs with
      | nil => intro _; rfl
      | cons e gs ih =>
        intro hg
        simp [List.mapM_cons, hg e List.mem_cons_self, ih (fun e he => hg e (List.mem_cons_of_mem _ he))]
    exact this fs hp
  rw [hk, h1] at h3
  injection h3 with h3
  rw [← h3]
  exact h2

theorem iface_inj {i j : Iface} (h : Reordered i.toDoc j.toDoc) : { i with handler := 0 } = { j with handler := 0 } := by
  have h2 := fields_inj h (by simp) rfl
  simp only [List.map_cons, List.map_nil] at h2
  obtain _ | ⟨a, _ | ⟨b, _ | ⟨c, _ | ⟨d, _ | ⟨e, _ | ⟨f, _ | _⟩⟩⟩⟩⟩⟩ := h2
  simp [u8_inj a, u8_inj b, u8_inj c, list_inj endpoint_back d, u8_inj e, bytes_inj f]

theorem ifaces_inj : ∀ {is js : List Iface}, ReorderedList (is.map Iface.toDoc) (js.map Iface.toDoc) →
    is.map (fun i => { i with handler := 0 }) = js.map (fun i => { i with handler := 0 })
  | [], [], _ => rfl
  | [], _ :: _, h => by cases h
  | _ :: _, [], h => by cases h
  | i :: is, j :: js, h => by
    obtain _ | ⟨h, t⟩ := h
    have h1 := iface_inj h
    have h2 := ifaces_inj t
    simp only [List.map_cons, h1, h2]

theorem strs_same : ∀ {pool : List (UInt8 × Str)} {bs : List (String × Doc)},
    ReorderedEntries (pool.map (fun e => (toString e.1.toNat, Doc.str (String.ofList e.2)))) bs →
    bs = pool.map (fun e => (toString e.1.toNat, Doc.str (String.ofList e.2)))
  | [], _, h => by cases h; rfl
  | e :: pool, _, h => by
    obtain _ | ⟨_, h, t⟩ := h
    rw [List.map_cons, ← strs_same t, of_str h]

theorem key_inj {a b : UInt8} (h : toString a.toNat = toString b.toNat) : a = b := by
  rw [Nat.toString_eq_ofList_toDigits, Nat.toString_eq_ofList_toDigits] at h
  have h := String.ofList_injective h
  have h1 := congrArg (fun l => Nat.ofDigitChars 10 l 0) h
  simp only [Nat.ofDigitChars_ten_toDigits] at h1
  exact UInt8.toNat_inj.mp h1

theorem entry_inj : Function.Injective (fun e : UInt8 × Str => (toString e.1.toNat, Doc.str (String.ofList e.2))) := by
  rintro ⟨a, s⟩ ⟨b, t⟩ h
  simp only [Prod.mk.injEq, Doc.str.injEq] at h
  rw [key_inj h.1, String.ofList_injective h.2]

theorem pool_inj {p q : List (UInt8 × Str)} (h : Reordered (poolDoc p) (poolDoc q)) : p.Perm q := by
  obtain ⟨bs, cs, hc, hb, hp⟩ := of_obj h
  rw [strs_same hb] at hp
  injection hc with hc
  rw [← hc] at hp
  exact (List.map_perm_map_iff entry_inj).mp hp

theorem enumerates_inj {p q : List (UInt8 × Str)} {f g : UInt8 → Option Str} (hp : Enumerates p f) (hq : Enumerates q g)
    (h : p.Perm q) : f = g := by
  funext i
  apply Option.ext
  intro s
  rw [← hp.2, ← hq.2]
  exact h.mem_iff

theorem enumerates_perm {p q : List (UInt8 × Str)} {f : UInt8 → Option Str} (hp : Enumerates p f) (hq : Enumerates q f) :
    p.Perm q := by
  rw [List.perm_ext_iff_of_nodup (List.Nodup.of_map _ hp.1) (List.Nodup.of_map _ hq.1)]
  rintro ⟨i, s⟩
  rw [hp.2, hq.2]

theorem pool_perm {p q : List (UInt8 × Str)} (h : p.Perm q) : Reordered (poolDoc p) (poolDoc q) :=
  .obj (reorderedEntries_refl _) (h.map _)

theorem device_inj {d e : Device} {a b : Doc} (hd : d.Writes a) (he : e.Writes b) (h : Reordered a b) :
    anonymous d = anonymous e := by
  obtain ⟨p, hp, rfl⟩ := hd
  obtain ⟨q, hq, rfl⟩ := he
  have h2 := fields_inj h (by simp) rfl
  simp only [List.map_cons, List.map_nil] at h2
  obtain _ | ⟨f1, _ | ⟨f2, _ | ⟨f3, _ | ⟨f4, _ | ⟨f5, _ | ⟨f6, _ | ⟨f7, _ | ⟨f8, _ | ⟨f9, _ | ⟨f10, _ | ⟨f11, _ | ⟨f12,
    _ | ⟨f13, _ | ⟨f14, _ | ⟨f15, _ | ⟨f16, _ | ⟨f17, _ | ⟨f18, _ | ⟨f19, _ | ⟨f20, _ | ⟨f21, _ | ⟨f22, _ |
    _⟩⟩⟩⟩⟩⟩⟩⟩⟩⟩⟩⟩⟩⟩⟩⟩⟩⟩⟩⟩⟩⟩ := h2
  obtain ⟨js, hj, f14⟩ := of_arr f14
  injection hj with hj
  rw [← hj] at f14
  have g14 := ifaces_inj f14
  have g18 := enumerates_inj hp hq (pool_inj f18)
  simp only [anonymous, utf8_inj f1, utf8_inj f2, u32_inj f3, u32_inj f4, u32_inj f5, u16_inj f6, u16_inj f7,
    survives_inj version_back f8, u8_inj f9, u8_inj f10, u8_inj f11, u8_inj f12, u8_inj f13, g14,
    survives_inj version_back f15, survives_inj endpoint_back f16, survives_inj endpoint_back f17, g18, u8_inj f19,
    u8_inj f20, u8_inj f21, u8_inj f22]

theorem anonymous_doc (d : Device) (p : List (UInt8 × Str)) : (anonymous d).toDoc p = d.toDoc p := by
  simp only [Device.toDoc, anonymous, List.map_map]
  rfl

theorem device_same {d e : Device} {a b : Doc} (hd : d.Writes a) (he : e.Writes b) (h : anonymous d = anonymous e) :
    Reordered a b := by
  obtain ⟨p, hp, rfl⟩ := hd
  obtain ⟨q, hq, rfl⟩ := he
  have hpool : (anonymous d).stringPool = (anonymous e).stringPool := by rw [h]
  have hpool : d.stringPool = e.stringPool := hpool
  rw [hpool] at hp
  rw [← anonymous_doc d, ← anonymous_doc e, h]
  refine .obj ?_ (List.Perm.refl _)
  repeat (first | exact .nil | refine .cons _ (.same _) ?_ | refine .cons _ (pool_perm (enumerates_perm hp hq)) ?_)

theorem devices_inj : ∀ {ds es : List Device} {xs ys : List Doc}, writesAll ds xs → writesAll es ys →
    ReorderedList xs ys → ds.map anonymous = es.map anonymous
  | [], [], _, _, _, _, _ => rfl
  | [], _ :: _, [], _ :: _, _, _, h => by cases h
  | _ :: _, [], _ :: _, [], _, _, h => by cases h
  | d :: ds, e :: es, x :: xs, y :: ys, hd, he, h => by
    obtain _ | ⟨h, t⟩ := h
    rw [List.map_cons, List.map_cons, device_inj hd.1 he.1 h, devices_inj hd.2 he.2 t]
  | [], _, _ :: _, _, hd, _, _ => hd.elim
  | _ :: _, _, [], _, hd, _, _ => hd.elim
  | _, [], _, _ :: _, _, he, _ => he.elim
  | _, _ :: _, _, [], _, he, _ => he.elim

theorem devices_same : ∀ {ds es : List Device} {xs ys : List Doc}, writesAll ds xs → writesAll es ys →
    ds.map anonymous = es.map anonymous → ReorderedList xs ys
  | [], [], [], [], _, _, _ => .nil
  | d :: ds, e :: es, x :: xs, y :: ys, hd, he, h => by
    simp only [List.map_cons, List.cons.injEq] at h
    exact .cons (device_same hd.1 he.1 h.1) (devices_same hd.2 he.2 h.2)
  | [], _ :: _, _, _, _, _, h => by simp at h
  | _ :: _, [], _, _, _, _, h => by simp at h
  | [], _, _ :: _, _, hd, _, _ => hd.elim
  | _ :: _, _, [], _, hd, _, _ => hd.elim
  | _, [], _, _ :: _, _, he, _ => he.elim
  | _, _ :: _, _, [], _, he, _ => he.elim

theorem reply_inj {r q : Resp} {a b : Doc} (hr : r.Writes a) (hq : q.Writes b) (h : Reordered a b) :
    anonymousReply r = anonymousReply q := by
  have tags : ∀ {k l : String} {c e : Doc}, Reordered (.obj [(k, c)]) (.obj [(l, e)]) → k = l ∧ Reordered c e := by
    intro k l c e h
    obtain ⟨c', h1, h2⟩ := tag_back h
    simp only [Doc.obj.injEq, List.cons.injEq, Prod.mk.injEq, and_true] at h1
    obtain ⟨rfl, rfl⟩ := h1
    exact ⟨rfl, h2⟩
  have imports : ∀ {st st' : UInt32} {x y : Doc}, Reordered (.obj [("status", .int st.toNat), ("device", x)])
      (.obj [("status", .int st'.toNat), ("device", y)]) → st = st' ∧ Reordered x y := by
    intro st st' x y h
    have h2 := fields_inj h (by simp) rfl
    simp only [List.map_cons, List.map_nil] at h2
    obtain _ | ⟨f1, _ | ⟨f2, _ | _⟩⟩ := h2
    exact ⟨u32_inj f1, f2⟩
  rcases r with ⟨st, n, ds⟩ | ⟨st, _ | d⟩ | ⟨hd, st, al, sf, np, ec, buf, iso⟩ | ⟨hd, st⟩ <;>
    rcases q with ⟨st', n', ds'⟩ | ⟨st', _ | d'⟩ | ⟨hd', st', al', sf', np', ec', buf', iso'⟩ | ⟨hd', st'⟩ <;>
    simp only [Resp.Writes] at hr hq
  · obtain ⟨xs, hx, rfl⟩ := hr
    obtain ⟨ys, hy, rfl⟩ := hq
    have h2 := fields_inj (tags h).2 (by simp) rfl
    simp only [List.map_cons, List.map_nil] at h2
    obtain _ | ⟨f1, _ | ⟨f2, _ | ⟨f3, _ | _⟩⟩⟩ := h2
    obtain ⟨js, hj, f3⟩ := of_arr f3
    injection hj with hj
    rw [← hj] at f3
    simp [anonymousReply, u32_inj f1, u32_inj f2, devices_inj hx hy f3]
  · obtain ⟨xs, hx, rfl⟩ := hr
    subst hq
    exact absurd (tags h).1 (by simp)
  · obtain ⟨xs, hx, rfl⟩ := hr
    obtain ⟨y, hy, rfl⟩ := hq
    exact absurd (tags h).1 (by simp)
  · obtain ⟨xs, hx, rfl⟩ := hr
    subst hq
    exact absurd (tags h).1 (by simp)
  · obtain ⟨xs, hx, rfl⟩ := hr
    subst hq
    exact absurd (tags h).1 (by simp)
  · obtain ⟨y, hy, rfl⟩ := hq
    subst hr
    exact absurd (tags h).1 (by simp)
  · subst hr hq
    simp [anonymousReply, (imports (tags h).2).1]
  · obtain ⟨y, hy, rfl⟩ := hq
    subst hr
    obtain ⟨pool, hp, rfl⟩ := hy
    have h3 := of_null (imports (tags h).2).2
    exact absurd h3 (by simp [Device.toDoc])
  · subst hr hq
    exact absurd (tags h).1 (by simp)
  · subst hr hq
    exact absurd (tags h).1 (by simp)
  · obtain ⟨y, hy, rfl⟩ := hr
    obtain ⟨xs, hx, rfl⟩ := hq
    exact absurd (tags h).1 (by simp)
  · obtain ⟨y, hy, rfl⟩ := hr
    subst hq
    obtain ⟨pool, hp, rfl⟩ := hy
    obtain ⟨_, cs, h3, _⟩ := of_obj (imports (tags h).2).2
    exact absurd h3 (by simp)
  · obtain ⟨x, hx, rfl⟩ := hr
    obtain ⟨y, hy, rfl⟩ := hq
    obtain ⟨h1, h2⟩ := imports (tags h).2
    simp [anonymousReply, h1, device_inj hx hy h2]
  · obtain ⟨y, hy, rfl⟩ := hr
    subst hq
    exact absurd (tags h).1 (by simp)
  · obtain ⟨y, hy, rfl⟩ := hr
    subst hq
    exact absurd (tags h).1 (by simp)
  · obtain ⟨xs, hx, rfl⟩ := hq
    subst hr
    exact absurd (tags h).1 (by simp)
  · subst hr hq
    exact absurd (tags h).1 (by simp)
  · obtain ⟨y, hy, rfl⟩ := hq
    subst hr
    exact absurd (tags h).1 (by simp)
  · subst hr hq
    have h2 := fields_inj (tags h).2 (by simp) rfl
    simp only [List.map_cons, List.map_nil] at h2
    obtain _ | ⟨f1, _ | ⟨f2, _ | ⟨f3, _ | ⟨f4, _ | ⟨f5, _ | ⟨f6, _ | ⟨f7, _ | ⟨f8, _ | _⟩⟩⟩⟩⟩⟩⟩⟩ := h2
    simp [anonymousReply, survives_inj header_back f1, u32_inj f2, u32_inj f3, u32_inj f4, u32_inj f5, u32_inj f6,
      bytes_inj f7, bytes_inj f8]
  · subst hr hq
    exact absurd (tags h).1 (by simp)
  · obtain ⟨xs, hx, rfl⟩ := hq
    subst hr
    exact absurd (tags h).1 (by simp)
  · subst hr hq
    exact absurd (tags h).1 (by simp)
  · obtain ⟨y, hy, rfl⟩ := hq
    subst hr
    exact absurd (tags h).1 (by simp)
  · subst hr hq
    exact absurd (tags h).1 (by simp)
  · subst hr hq
    have h2 := fields_inj (tags h).2 (by simp) rfl
    simp only [List.map_cons, List.map_nil] at h2
    obtain _ | ⟨f1, _ | ⟨f2, _ | _⟩⟩ := h2
    simp [anonymousReply, survives_inj header_back f1, u32_inj f2]

/-! ## What is seen of a device without its handlers -/

theorem anonymous_toBytes (p : Profile) (d : Device) : (anonymous d).toBytes p = d.toBytes p := by
  have h : (anonymous d).interfaces.length = d.interfaces.length := by simp [anonymous]
  simp only [Device.toBytes, h]
  rfl

theorem anonymous_record (p : Profile) (d : Device) :
    (anonymous d).toBytesWithInterfaces p = d.toBytesWithInterfaces p := by
  have h : (anonymous d).interfaces.flatMap (fun i => [i.interfaceClass, i.interfaceSubclass, i.interfaceProtocol, 0]) =
      d.interfaces.flatMap (fun i => [i.interfaceClass, i.interfaceSubclass, i.interfaceProtocol, 0]) := by
    simp [anonymous, List.flatMap_map]
  simp only [Device.toBytesWithInterfaces, anonymous_toBytes, h]

theorem anonymous_ifaces : ∀ (is : List Iface) (n : Nat),
    ifaceDescriptors n (is.map (fun i => { i with handler := 0 })) = ifaceDescriptors n is
  | [], _ => rfl
  | i :: is, n => by
    simp only [List.map_cons, ifaceDescriptors, anonymous_ifaces is (n + 1)]
    rfl

theorem anonymous_descriptor (p : Profile) (d : Device) (setup : SetupPacket) :
    (anonymous d).getDescriptor p setup = d.getDescriptor p setup := by
  have h : (anonymous d).configDescriptor = d.configDescriptor := by
    simp [Device.configDescriptor, anonymous, anonymous_ifaces]
  simp only [Device.getDescriptor, h]
  rfl

theorem anonymous_find (d : Device) (a : UInt8) :
    ((anonymous d).findEp a).map (·.1) = (d.findEp a).map (·.1) := by
  have h : ∀ is : List Iface, (findEpIfs a (is.map (fun i => { i with handler := 0 }))).map (·.1) =
      (findEpIfs a is).map (·.1) := by
    intro is
    induction is with
    | nil => rfl
    | cons i is ih =>
      simp only [List.map_cons, findEpIfs]
      cases findEpIn a i.endpoints with
      | none => exact ih
      | some e => rfl
  show Option.map (·.1) (if a = d.ep0In.address then some (d.ep0In, none) else
    if a = d.ep0Out.address then some (d.ep0Out, none) else
      findEpIfs a (d.interfaces.map (fun i => { i with handler := 0 }))) =
    Option.map (·.1) (if a = d.ep0In.address then some (d.ep0In, none) else
    if a = d.ep0Out.address then some (d.ep0Out, none) else findEpIfs a d.interfaces)
  by_cases h1 : a = d.ep0In.address
  · rw [if_pos h1, if_pos h1]
  · rw [if_neg h1, if_neg h1]
    by_cases h2 : a = d.ep0Out.address
    · rw [if_pos h2, if_pos h2]
    · rw [if_neg h2, if_neg h2]
      exact h _

theorem anonymous_devlist (p : Profile) : ∀ ds : List Device, devlistBytes p (ds.map anonymous) = devlistBytes p ds
  | [] => rfl
  | d :: ds => by simp only [List.map_cons, devlistBytes, anonymous_record, anonymous_devlist p ds]

theorem anonymous_reply (p : Profile) (r : Resp) : (anonymousReply r).toBytes p = r.toBytes p := by
  rcases r with ⟨st, n, ds⟩ | ⟨st, _ | d⟩ | ⟨hd, st, al, sf, np, ec, buf, iso⟩ | ⟨hd, st⟩
  · simp only [anonymousReply, Resp.toBytes, anonymous_devlist]
  · rfl
  · simp only [anonymousReply, Option.map_some, Resp.toBytes, anonymous_toBytes]
  · rfl
  · rfl

/-- Every device can be written. -/
theorem enumerated (f : UInt8 → Option Str) : ∃ pool, Enumerates pool f := by
  let keys : List UInt8 := (List.range 256).map UInt8.ofNat
  have hk : ∀ i : UInt8, i ∈ keys := fun i => List.mem_map.mpr ⟨i.toNat, List.mem_range.mpr i.toNat_lt, by simp⟩
  have hn : keys.Nodup := by decide +kernel
  refine ⟨keys.filterMap (fun i => (f i).map (fun s => (i, s))), ?_, ?_⟩
  · have : (keys.filterMap (fun i => (f i).map (fun s => (i, s)))).map (·.1) = keys.filter (fun i => (f i).isSome) := by
      generalize keys = l
      induction l with
      | nil => rfl
      | cons i l ih =>
        cases h : f i with
        | none => simp [h, ih]
        | some s => simp [h, ih]
    rw [this]
    exact hn.filter _
  · intro i s
    simp only [List.mem_filterMap, Option.map_eq_some_iff, Prod.mk.injEq]
    constructor
    · rintro ⟨j, _, t, h1, rfl, rfl⟩; exact h1
    · intro h; exact ⟨i, hk i, s, h, rfl, rfl⟩

end Usbip
