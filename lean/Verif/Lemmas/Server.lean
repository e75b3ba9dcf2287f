import Verif.Spec.Server
import Verif.Lemmas.Slots
import Verif.Lemmas.Client
/-! Helper lemmas about the server. -/

namespace Usbip
open Spec

/-! ### Lists and maps -/

theorem takeFirst_some {id : Bytes} {l : List Device} {d : Device} {rest : List Device} :
    takeFirst id l = some (d, rest) ↔ ∃ l1 l2, l = l1 ++ d :: l2 ∧ rest = l1 ++ l2 ∧
      d.busId = id ∧ ∀ x ∈ l1, x.busId ≠ id := by
  induction l generalizing rest with
  | nil => simp [takeFirst]
  | cons a l ih =>
    rw [takeFirst]
    by_cases ha : a.busId = id
    · rw [if_pos ha]
      constructor
      · intro h
        simp only [Option.some.injEq, Prod.mk.injEq] at h
        obtain ⟨rfl, rfl⟩ := h
        exact ⟨[], l, rfl, rfl, ha, by simp⟩
      · rintro ⟨l1, l2, hl, rfl, hd, hn⟩
        cases l1 with
        | nil => simp only [List.nil_append, List.cons.injEq] at hl; rw [hl.1, hl.2]; rfl
        | cons y ys =>
          simp only [List.cons_append, List.cons.injEq] at hl
          exact absurd ha (hl.1 ▸ hn y (by simp))
    · rw [if_neg ha]
      cases h : takeFirst id l with
      | none =>
        simp only [reduceCtorEq, false_iff]
        rintro ⟨l1, l2, hl, _, hd, hn⟩
        cases l1 with
        | nil => simp only [List.nil_append, List.cons.injEq] at hl; exact ha (hl.1 ▸ hd)
        | cons y ys =>
          simp only [List.cons_append, List.cons.injEq] at hl
          have := (ih (rest := ys ++ l2)).mpr ⟨ys, l2, hl.2, rfl, hd, fun x hx => hn x (by simp [hx])⟩
          rw [h] at this
          simp at this
      | some r =>
        obtain ⟨x, r⟩ := r
        have hih := fun rest => ih (rest := rest)
        rw [h] at hih
        simp only [Option.some.injEq, Prod.mk.injEq] at hih ⊢
        constructor
        · rintro ⟨rfl, rfl⟩
          obtain ⟨l1, l2, rfl, rfl, hd, hn⟩ := (hih r).mp ⟨rfl, rfl⟩
          exact ⟨a :: l1, l2, rfl, rfl, hd, by simpa using ⟨ha, hn⟩⟩
        · rintro ⟨l1, l2, hl, rfl, hd, hn⟩
          cases l1 with
          | nil => simp only [List.nil_append, List.cons.injEq] at hl; exact absurd hd (hl.1 ▸ ha)
          | cons y ys =>
            simp only [List.cons_append, List.cons.injEq] at hl
            obtain ⟨rfl, rfl⟩ := hl
            obtain ⟨rfl, rfl⟩ := (hih (ys ++ l2)).mpr ⟨ys, l2, rfl, rfl, hd, fun x hx => hn x (by simp [hx])⟩
            exact ⟨rfl, rfl⟩

theorem takeFirst_none {id : Bytes} {l : List Device} :
    takeFirst id l = none ↔ ∀ x ∈ l, x.busId ≠ id := by
  induction l with
  | nil => simp [takeFirst]
  | cons a l ih =>
    rw [takeFirst]
    by_cases ha : a.busId = id
    · simp [ha]
    · rw [if_neg ha]
      cases h : takeFirst id l with
      | none => simp only [true_iff]; simpa [ha] using ih.mp h
      | some r =>
        simp only [reduceCtorEq, false_iff]
        intro hall
        have := ih.mpr (fun x hx => hall x (by simp [hx]))
        rw [h] at this; simp at this

theorem amGet_none {k : Bytes} {m : List (Bytes × Device)} :
    amGet k m = none ↔ k ∉ m.map Prod.fst := by
  induction m with
  | nil => simp [amGet]
  | cons e m ih =>
    obtain ⟨k', d⟩ := e
    rw [amGet]
    by_cases h : k' = k
    · simp [h]
    · rw [if_neg h, ih]
      simp only [List.map_cons, List.mem_cons, not_or]
      exact ⟨fun h' => ⟨fun e => h e.symm, h'⟩, fun h' => h'.2⟩

theorem amGet_mem {k : Bytes} {m : List (Bytes × Device)} {d} (h : amGet k m = some d) : (k, d) ∈ m := by
  induction m with
  | nil => simp [amGet] at h
  | cons e m ih =>
    obtain ⟨k', d'⟩ := e
    rw [amGet] at h
    by_cases hk : k' = k
    · rw [if_pos hk] at h
      simp only [Option.some.injEq] at h
      simp [hk, h]
    · rw [if_neg hk] at h
      exact List.mem_cons_of_mem _ (ih h)

theorem amGet_of_mem {k : Bytes} {m : List (Bytes × Device)} (h : k ∈ m.map Prod.fst) :
    ∃ d, amGet k m = some d := by
  cases hg : amGet k m with
  | some d => exact ⟨d, rfl⟩
  | none => exact absurd h (amGet_none.mp hg)

theorem amErase_mem {k : Bytes} {m : List (Bytes × Device)} {e} :
    e ∈ amErase k m ↔ e ∈ m ∧ e.1 ≠ k := by
  simp [amErase]

theorem amErase_keys {k : Bytes} {m : List (Bytes × Device)} :
    (amErase k m).map Prod.fst = (m.map Prod.fst).filter (fun x => x ≠ k) := by
  rw [amErase, List.filter_map]; rfl

theorem amErase_absent {k : Bytes} {m : List (Bytes × Device)} (h : k ∉ m.map Prod.fst) :
    amErase k m = m := by
  rw [amErase, List.filter_eq_self]
  intro e he
  simp only [ne_eq, decide_not, Bool.not_eq_true', decide_eq_false_iff_not]
  rintro rfl
  exact h (List.mem_map.mpr ⟨e, he, rfl⟩)

theorem amGet_erase_ne {k k' : Bytes} {m : List (Bytes × Device)} (h : k' ≠ k) :
    amGet k' (amErase k m) = amGet k' m := by
  induction m with
  | nil => rfl
  | cons e m ih =>
    obtain ⟨k₁, d⟩ := e
    unfold amErase at *
    by_cases h1 : k₁ = k
    · subst h1
      rw [List.filter_cons_of_neg (by simp), ih, amGet, if_neg (Ne.symm h)]
    · rw [List.filter_cons_of_pos (by simp [h1]), amGet, amGet, ih]

theorem amGet_insert_self {k : Bytes} {d} {m : List (Bytes × Device)} :
    amGet k (amInsert k d m) = some d := by
  simp [amInsert, amGet]

theorem amGet_insert_ne {k k' : Bytes} {d} {m : List (Bytes × Device)} (h : k' ≠ k) :
    amGet k' (amInsert k d m) = amGet k' m := by
  rw [amInsert, amGet, if_neg (Ne.symm h), amGet_erase_ne h]

/-! ### One iteration -/

/-- What serving a command does to the device lists and to the connection's device. -/
theorem serve_effect {σ} (env : Env σ) (p : Profile) (s : Shared σ) (cur : Option Bytes) (cmd : Cmd) :
    -- import granted
    (∃ st busid d l1 l2, cmd = .reqImport st busid ∧ s.available = l1 ++ d :: l2 ∧
      d.busId = busidCompare busid ∧ (∀ x ∈ l1, x.busId ≠ busidCompare busid) ∧
      s.serve env p cur cmd = (.ok (opRepImportSuccess d),
        { s with available := l1 ++ l2, used := amInsert d.busId d s.used }, some d.busId)) ∨
    -- import refused
    (∃ st busid, cmd = .reqImport st busid ∧ (∀ x ∈ s.available, x.busId ≠ busidCompare busid) ∧
      s.serve env p cur cmd = (.ok opRepImportFail, s, none)) ∨
    -- anything else
    (isImport cmd = false ∧ (s.serve env p cur cmd).2.1.available = s.available ∧
      (s.serve env p cur cmd).2.1.used = s.used ∧ (s.serve env p cur cmd).2.2 = cur) := by
  cases cmd with
  | reqDevlist st => right; right; exact ⟨rfl, rfl, rfl, rfl⟩
  | unlink h n => right; right; exact ⟨rfl, rfl, rfl, rfl⟩
  | submit h a b c d e f g i =>
    right; right
    refine ⟨rfl, ?_⟩
    unfold Shared.serve
    dsimp only
    split
    · exact ⟨rfl, rfl, rfl⟩
    · unfold Shared.submit
      dsimp only
      split
      · exact ⟨rfl, rfl, rfl⟩
      · split <;> exact ⟨rfl, rfl, rfl⟩
  | reqImport st busid =>
    cases h : takeFirst (busidCompare busid) s.available with
    | none =>
      right; left
      refine ⟨st, busid, rfl, takeFirst_none.mp h, ?_⟩
      simp only [Shared.serve, Shared.import, h]
    | some r =>
      obtain ⟨d, rest⟩ := r
      left
      obtain ⟨l1, l2, hl, rfl, hd, hn⟩ := takeFirst_some.mp h
      refine ⟨st, busid, d, l1, l2, rfl, hl, hd, hn, ?_⟩
      simp only [Shared.serve, Shared.import, h]

/-- The possible results of one loop iteration. -/
inductive IterRes {σ} (env : Env σ) (p : Profile) (s : Shared σ) (x : Conn) (w : WriteRes) :
    Shared σ → Conn → Prop
  /-- reading failed, the device (if any) was given back -/
  | done (e : ErrKind) (s' : Shared σ) (hr : readCommand p x.input = .err e)
      (hrel : s.release x.current = some s') :
      IterRes env p s x w s' { x with current := none
                                      status := if e = .unexpectedEof then .closed else .failed e }
  /-- reading failed and the device was not there: `unreachable!()` -/
  | missing (e : ErrKind) (hr : readCommand p x.input = .err e) (hrel : s.release x.current = none) :
      IterRes env p s x w s { x with status := .panicked }
  /-- reading panicked -/
  | readPanic (hr : readCommand p x.input = .panic ∨ readCommand p x.input = .diverge) :
      IterRes env p s x w s { x with status := .panicked }
  /-- answered -/
  | answered (cmd : Cmd) (rest : Stream) (resp : Resp) (s' : Shared σ) (cur' : Option Bytes)
      (bytes : Bytes) (hr : readCommand p x.input = .ok (cmd, rest))
      (hs : s.serve env p x.current cmd = (.ok resp, s', cur')) (hb : resp.toBytes p = .ok bytes)
      (hw : w = .full) :
      IterRes env p s x w s' { x with input := rest, current := cur', output := x.output ++ bytes
                                      served := x.served ++ [(cmd, resp)] }
  /-- the reply could not be sent -/
  | writeFailed (cmd : Cmd) (rest : Stream) (resp : Resp) (s' : Shared σ) (cur' : Option Bytes)
      (bytes : Bytes) (n : Nat) (e : ErrKind) (hr : readCommand p x.input = .ok (cmd, rest))
      (hs : s.serve env p x.current cmd = (.ok resp, s', cur')) (hb : resp.toBytes p = .ok bytes)
      (hw : w = .fail n e) :
      IterRes env p s x w s' { x with input := rest, current := cur'
                                      output := x.output ++ bytes.take n, status := .failed e }
  /-- the task was dropped while it was sending the reply -/
  | writeCut (cmd : Cmd) (rest : Stream) (resp : Resp) (s' : Shared σ) (cur' : Option Bytes)
      (bytes : Bytes) (n : Nat) (hr : readCommand p x.input = .ok (cmd, rest))
      (hs : s.serve env p x.current cmd = (.ok resp, s', cur')) (hb : resp.toBytes p = .ok bytes)
      (hw : w = .cut n) :
      IterRes env p s x w s' { x with input := rest, current := cur'
                                      output := x.output ++ bytes.take n, status := .cancelled }
  /-- executing the command, or serialising the reply, panicked -/
  | servePanic (cmd : Cmd) (rest : Stream) (hr : readCommand p x.input = .ok (cmd, rest))
      (hs : (∀ r, (s.serve env p x.current cmd).1 ≠ .ok r) ∨
        ∃ r, (s.serve env p x.current cmd).1 = .ok r ∧ ∀ b, r.toBytes p ≠ .ok b) :
      IterRes env p s x w (s.serve env p x.current cmd).2.1
        { x with input := rest, current := (s.serve env p x.current cmd).2.2, status := .panicked }

theorem iterate_res {σ} (env : Env σ) (p : Profile) (s : Shared σ) (x : Conn) (w : WriteRes) :
    IterRes env p s x w (x.iterate env p s w).1 (x.iterate env p s w).2 := by
  unfold Conn.iterate
  cases hr : readCommand p x.input with
  | ok r =>
    obtain ⟨cmd, rest⟩ := r
    simp only
    rcases hs : s.serve env p x.current cmd with ⟨r, s', cur'⟩
    have e1 : s' = (s.serve env p x.current cmd).2.1 := by rw [hs]
    have e2 : cur' = (s.serve env p x.current cmd).2.2 := by rw [hs]
    cases r with
    | ok resp =>
      simp only
      cases hb : resp.toBytes p with
      | ok bytes =>
        cases w with
        | full => exact .answered cmd rest resp s' cur' bytes hr hs hb rfl
        | fail n e => exact .writeFailed cmd rest resp s' cur' bytes n e hr hs hb rfl
        | cut n => exact .writeCut cmd rest resp s' cur' bytes n hr hs hb rfl
      | err e =>
        rw [e1, e2]
        exact .servePanic cmd rest hr (Or.inr ⟨resp, by rw [hs], by rw [hb]; simp⟩)
      | panic =>
        rw [e1, e2]
        exact .servePanic cmd rest hr (Or.inr ⟨resp, by rw [hs], by rw [hb]; simp⟩)
      | diverge =>
        rw [e1, e2]
        exact .servePanic cmd rest hr (Or.inr ⟨resp, by rw [hs], by rw [hb]; simp⟩)
    | err e =>
      rw [e1, e2]
      exact .servePanic cmd rest hr (Or.inl (by rw [hs]; simp))
    | panic =>
      rw [e1, e2]
      exact .servePanic cmd rest hr (Or.inl (by rw [hs]; simp))
    | diverge =>
      rw [e1, e2]
      exact .servePanic cmd rest hr (Or.inl (by rw [hs]; simp))
  | err e =>
    simp only
    cases hrel : s.release x.current with
    | some s' => exact .done e s' hr hrel
    | none => exact .missing e hr hrel
  | panic => exact .readPanic (Or.inl hr)
  | diverge => exact .readPanic (Or.inr hr)

/-- The possible changes an iteration makes to the lists and to the connection's device. -/
inductive Effect {σ} (s : Shared σ) (cur : Option Bytes) : Shared σ → Option Bytes → Prop
  | keep (s') (ha : s'.available = s.available) (hu : s'.used = s.used) : Effect s cur s' cur
  | refuse (s') (ha : s'.available = s.available) (hu : s'.used = s.used) : Effect s cur s' none
  | grant (s' d l1 l2) (h : s.available = l1 ++ d :: l2) (ha : s'.available = l1 ++ l2)
      (hu : s'.used = amInsert d.busId d s.used) : Effect s cur s' (some d.busId)
  | release (s' id d) (hc : cur = some id) (hg : amGet id s.used = some d)
      (ha : s'.available = s.available ++ [d]) (hu : s'.used = amErase id s.used) :
      Effect s cur s' none

theorem serve_Effect {σ} (env : Env σ) (p : Profile) (s : Shared σ) (cur : Option Bytes) (cmd : Cmd) :
    Effect s cur (s.serve env p cur cmd).2.1 (s.serve env p cur cmd).2.2 := by
  rcases serve_effect env p s cur cmd with ⟨st, busid, d, l1, l2, _, hl, _, _, h⟩ | ⟨st, busid, _, _, h⟩ | ⟨_, h1, h2, h3⟩
  · rw [h]; exact .grant _ d l1 l2 hl rfl rfl
  · rw [h]; exact .refuse _ rfl rfl
  · rw [h3]; exact .keep _ h1 h2

theorem release_Effect {σ} {s s' : Shared σ} {cur : Option Bytes} (h : s.release cur = some s') :
    Effect s cur s' none := by
  cases cur with
  | none =>
    simp only [Shared.release, Option.some.injEq] at h
    subst h
    exact .keep _ rfl rfl
  | some id =>
    simp only [Shared.release] at h
    split at h
    · rename_i d hg
      simp only [Option.some.injEq] at h
      subst h
      exact .release _ id d rfl hg rfl rfl
    · simp at h

theorem iterate_Effect {σ} (env : Env σ) (p : Profile) (s : Shared σ) (x : Conn) (w : WriteRes) :
    Effect s x.current (x.iterate env p s w).1 (x.iterate env p s w).2.current := by
  have h := iterate_res env p s x w
  generalize (x.iterate env p s w).1 = s' at h ⊢
  generalize (x.iterate env p s w).2 = x' at h ⊢
  cases h with
  | done e s' hr hrel => exact release_Effect hrel
  | missing e hr hrel => exact .keep _ rfl rfl
  | readPanic hr => exact .keep _ rfl rfl
  | answered cmd rest resp s' cur' bytes hr hs hb hw =>
    have := serve_Effect env p s x.current cmd
    rw [hs] at this; exact this
  | writeFailed cmd rest resp s' cur' bytes n e hr hs hb hw =>
    have := serve_Effect env p s x.current cmd
    rw [hs] at this; exact this
  | writeCut cmd rest resp s' cur' bytes n hr hs hb hw =>
    have := serve_Effect env p s x.current cmd
    rw [hs] at this; exact this
  | servePanic cmd rest hr hs => exact serve_Effect env p s x.current cmd

/-! ### The invariant -/

structure Inv {σ} (sh : Shared σ) (conns : Nat → Option Conn) : Prop where
  nodup : (sh.available.map Device.busId ++ sh.used.map Prod.fst).Nodup
  keyed : ∀ e ∈ sh.used, e.2.busId = e.1
  held : ∀ c x id, conns c = some x → x.status = .running → x.current = some id →
    id ∈ sh.used.map Prod.fst
  own : ∀ c₁ c₂ x₁ x₂ id, c₁ ≠ c₂ → conns c₁ = some x₁ → conns c₂ = some x₂ →
    x₁.status = .running → x₂.status = .running → x₁.current = some id → x₂.current = some id → False

theorem Effect.lists {σ} {s s' : Shared σ} {cur cur'} (h : Effect s cur s' cur')
    (hn : (s.available.map Device.busId ++ s.used.map Prod.fst).Nodup)
    (hk : ∀ e ∈ s.used, e.2.busId = e.1) :
    (s'.available.map Device.busId ++ s'.used.map Prod.fst).Nodup ∧ (∀ e ∈ s'.used, e.2.busId = e.1)
    ∧ (onServer s').Perm (onServer s) := by
  cases h with
  | keep ha hu => rw [ha, hu]; exact ⟨hn, hk, by unfold onServer; rw [ha, hu]⟩
  | refuse ha hu => rw [ha, hu]; exact ⟨hn, hk, by unfold onServer; rw [ha, hu]⟩
  | grant d l1 l2 h ha hu =>
    have hnot : d.busId ∉ s.used.map Prod.fst := by
      rw [List.nodup_append] at hn
      intro hm
      exact hn.2.2 d.busId (by rw [h]; simp) d.busId hm rfl
    have hu' : s'.used = (d.busId, d) :: s.used := by rw [hu, amInsert, amErase_absent hnot]
    refine ⟨?_, ?_, ?_⟩
    · rw [ha, hu']
      rw [h] at hn
      have hp : (List.map Device.busId (l1 ++ l2) ++ List.map Prod.fst ((d.busId, d) :: s.used)).Perm
          (List.map Device.busId (l1 ++ d :: l2) ++ List.map Prod.fst s.used) := by
        simp only [List.map_append, List.map_cons, List.append_assoc, List.cons_append]
        apply List.Perm.append_left
        exact List.perm_middle
      exact hp.nodup_iff.mpr hn
    · rw [hu']
      intro e he
      rcases List.mem_cons.mp he with rfl | he
      · rfl
      · exact hk e he
    · unfold onServer
      rw [ha, hu', h]
      simp only [List.map_cons, List.append_assoc, List.cons_append]
      apply List.Perm.append_left
      exact List.perm_middle
  | release id d hc hg ha hu =>
    have hmem := amGet_mem hg
    have hid : d.busId = id := hk _ hmem
    have hperm : s.used.Perm ((id, d) :: s'.used) := by
      rw [hu]
      rw [List.nodup_append] at hn
      have hnd := hn.2.1
      clear hn hk ha hu hc
      generalize s.used = m at *
      induction m with
      | nil => simp at hmem
      | cons e m ih =>
        obtain ⟨k, v⟩ := e
        simp only [List.map_cons, List.nodup_cons] at hnd
        rw [amGet] at hg
        by_cases hkk : k = id
        · rw [if_pos hkk] at hg
          simp only [Option.some.injEq] at hg
          subst hg; subst hkk
          unfold amErase
          rw [List.filter_cons_of_neg (by simp)]
          have := amErase_absent hnd.1
          unfold amErase at this
          rw [this]
        · rw [if_neg hkk] at hg
          unfold amErase
          rw [List.filter_cons_of_pos (by simp [hkk])]
          have h1 := ih hg (amGet_mem hg) hnd.2
          unfold amErase at h1
          exact (List.Perm.cons _ h1).trans (List.Perm.swap _ _ _)
    refine ⟨?_, ?_, ?_⟩
    · rw [ha]
      have hp : (List.map Device.busId (s.available ++ [d]) ++ List.map Prod.fst s'.used).Perm
          (List.map Device.busId s.available ++ List.map Prod.fst s.used) := by
        simp only [List.map_append, List.append_assoc, List.map_cons, List.map_nil,
          List.cons_append, List.nil_append]
        apply List.Perm.append_left
        have := (hperm.map Prod.fst).symm
        simp only [List.map_cons] at this
        rw [hid]; exact this
      exact hp.nodup_iff.mpr hn
    · rw [hu]
      intro e he
      exact hk e (amErase_mem.mp he).1
    · unfold onServer
      rw [ha]
      simp only [List.append_assoc, List.cons_append, List.nil_append]
      apply List.Perm.append_left
      have := (hperm.map Prod.snd).symm
      simpa using this

/-- The keys of the imported set after an iteration: everything but the connection's own device
stays. -/
theorem Effect.keys {σ} {s s' : Shared σ} {cur cur'} (h : Effect s cur s' cur')
    (id : Bytes) (hid : id ∈ s.used.map Prod.fst) (hne : cur ≠ some id) :
    id ∈ s'.used.map Prod.fst := by
  cases h with
  | keep ha hu => rw [hu]; exact hid
  | refuse ha hu => rw [hu]; exact hid
  | grant d l1 l2 h ha hu =>
    rw [hu, amInsert]
    by_cases hd : d.busId = id
    · simp [hd]
    · simp only [List.map_cons, List.mem_cons]
      right
      rw [amErase_keys]
      simp only [ne_eq, decide_not, List.mem_filter, Bool.not_eq_true', decide_eq_false_iff_not]
      exact ⟨hid, fun h => hd h.symm⟩
  | release id' d hc hg ha hu =>
    rw [hu, amErase_keys]
    simp only [ne_eq, decide_not, List.mem_filter, Bool.not_eq_true', decide_eq_false_iff_not]
    refine ⟨hid, ?_⟩
    rintro rfl
    exact hne hc

/-- The connection's new device is one it had before or one that was available. -/
theorem Effect.current {σ} {s s' : Shared σ} {cur cur'} (h : Effect s cur s' cur') (id : Bytes)
    (hc : cur' = some id) :
    (cur = some id ∧ s'.used = s.used) ∨
    (id ∈ s.available.map Device.busId ∧ id ∈ s'.used.map Prod.fst) := by
  cases h with
  | keep ha hu => exact Or.inl ⟨hc, hu⟩
  | refuse ha hu => simp at hc
  | grant d l1 l2 h ha hu =>
    right
    simp only [Option.some.injEq] at hc
    subst hc
    exact ⟨by rw [h]; simp, by rw [hu]; simp [amInsert]⟩
  | release id' d hc' hg ha hu => simp at hc

theorem Inv.iterate {σ} (env : Env σ) (p : Profile) {sh : Shared σ} {conns : Nat → Option Conn}
    (h : Inv sh conns) (c : Nat) (x : Conn) (hx : conns c = some x) (hrun : x.status = .running)
    (w : WriteRes) :
    Inv (x.iterate env p sh w).1 (setConn conns c (x.iterate env p sh w).2) := by
  have heff := iterate_Effect env p sh x w
  generalize (x.iterate env p sh w).1 = sh' at *
  generalize (x.iterate env p sh w).2 = x' at *
  obtain ⟨hn, hk, _⟩ := heff.lists h.nodup h.keyed
  have hothers : ∀ c' y id, c' ≠ c → conns c' = some y → y.status = .running → y.current = some id →
      id ∈ sh'.used.map Prod.fst := by
    intro c' y id hne hy hr hc
    exact heff.keys id (h.held c' y id hy hr hc)
      (fun hxc => h.own c' c y x id hne hy hx hr hrun hc hxc)
  have hmine : ∀ id, x'.current = some id → id ∈ sh'.used.map Prod.fst ∧
      ∀ c' y, c' ≠ c → conns c' = some y → y.status = .running → y.current ≠ some id := by
    intro id hid
    rcases heff.current id hid with ⟨h1, h2⟩ | ⟨h1, h2⟩
    · refine ⟨by rw [h2]; exact h.held c x id hx hrun h1, ?_⟩
      intro c' y hne hy hr hc
      exact h.own c' c y x id hne hy hx hr hrun hc h1
    · refine ⟨h2, ?_⟩
      intro c' y hne hy hr hc
      have := h.held c' y id hy hr hc
      have hnd := h.nodup
      rw [List.nodup_append] at hnd
      exact hnd.2.2 id h1 id this rfl
  refine ⟨hn, hk, ?_, ?_⟩
  · intro c' y id hy hr hc
    simp only [setConn] at hy
    split at hy
    · simp only [Option.some.injEq] at hy
      subst hy
      exact (hmine id hc).1
    · rename_i hne
      exact hothers c' y id hne hy hr hc
  · intro c₁ c₂ x₁ x₂ id hne h1 h2 r1 r2 e1 e2
    simp only [setConn] at h1 h2
    split at h1
    · rename_i hc1
      simp only [Option.some.injEq] at h1
      subst h1
      rw [if_neg (by rintro rfl; exact hne hc1)] at h2
      exact (hmine id e1).2 c₂ x₂ (by rintro rfl; exact hne hc1) h2 r2 e2
    · rename_i hc1
      split at h2
      · simp only [Option.some.injEq] at h2
        subst h2
        exact (hmine id e2).2 c₁ x₁ hc1 h1 r1 e1
      · exact h.own c₁ c₂ x₁ x₂ id hne h1 h2 r1 r2 e1 e2

/-- Replacing a connection by one that holds nothing keeps the invariant. -/
theorem Inv.setIdle {σ} {sh : Shared σ} {conns : Nat → Option Conn} (h : Inv sh conns) (c : Nat)
    (y : Conn) (hy : y.status = .running → y.current = none) : Inv sh (setConn conns c y) := by
  refine ⟨h.nodup, h.keyed, ?_, ?_⟩
  · intro c' z id hz hr hc
    simp only [setConn] at hz
    split at hz
    · simp only [Option.some.injEq] at hz
      subst hz
      rw [hy hr] at hc; simp at hc
    · exact h.held c' z id hz hr hc
  · intro c₁ c₂ x₁ x₂ id hne h1 h2 r1 r2 e1 e2
    simp only [setConn] at h1 h2
    split at h1
    · simp only [Option.some.injEq] at h1
      subst h1
      rw [hy r1] at e1; simp at e1
    · split at h2
      · simp only [Option.some.injEq] at h2
        subst h2
        rw [hy r2] at e2; simp at e2
      · exact h.own c₁ c₂ x₁ x₂ id hne h1 h2 r1 r2 e1 e2

theorem onServer_busIds {σ} {sh : Shared σ} (hk : ∀ e ∈ sh.used, e.2.busId = e.1) :
    (onServer sh).map Device.busId = sh.available.map Device.busId ++ sh.used.map Prod.fst := by
  unfold onServer
  rw [List.map_append, List.map_map]
  congr 1
  apply List.map_congr_left
  intro e he
  exact hk e he

theorem nodup_map_inj {α β} (f : α → β) : ∀ (l : List α), (l.map f).Nodup →
    ∀ {a b : α}, a ∈ l → b ∈ l → f a = f b → a = b
  | [], _, _, _, ha, _, _ => by simp at ha
  | x :: xs, h, a, b, ha, hb, he => by
    rw [List.map_cons, List.nodup_cons] at h
    rcases List.mem_cons.mp ha with rfl | ha' <;> rcases List.mem_cons.mp hb with rfl | hb'
    · rfl
    · exact absurd (List.mem_map.mpr ⟨b, hb', he.symm⟩) h.1
    · exact absurd (List.mem_map.mpr ⟨a, ha', he⟩) h.1
    · exact nodup_map_inj f xs h.2 ha' hb' he

theorem Inv.distinct {σ} {sh : Shared σ} {conns} (h : Inv sh conns) : Distinct sh := by
  unfold Distinct
  rw [onServer_busIds h.keyed]
  exact h.nodup

theorem removeDevice_cases {σ} (s : Shared σ) (id : Bytes) :
    (∃ d l1 l2, s.available = l1 ++ d :: l2 ∧ d.busId = id ∧ (∀ x ∈ l1, x.busId ≠ id) ∧
      s.removeDevice id = (.ok (), { s with available := l1 ++ l2 })) ∨
    ((∀ x ∈ s.available, x.busId ≠ id) ∧ (∃ e ∈ s.used, e.2.busId = id) ∧
      s.removeDevice id = (.err .other, s)) ∨
    ((∀ x ∈ s.available, x.busId ≠ id) ∧ (∀ e ∈ s.used, e.2.busId ≠ id) ∧
      s.removeDevice id = (.err .notFound, s)) := by
  unfold Shared.removeDevice
  cases h : takeFirst id s.available with
  | some r =>
    obtain ⟨d, rest⟩ := r
    obtain ⟨l1, l2, hl, rfl, hd, hn⟩ := takeFirst_some.mp h
    exact Or.inl ⟨d, l1, l2, hl, hd, hn, rfl⟩
  | none =>
    right
    have hno := takeFirst_none.mp h
    by_cases hu : (s.used.any fun e => e.2.busId == id) = true
    · left
      refine ⟨hno, ?_, by simp only [hu, if_true]⟩
      rw [List.any_eq_true] at hu
      obtain ⟨e, he, hb⟩ := hu
      exact ⟨e, he, by simpa using hb⟩
    · right
      refine ⟨hno, ?_, by simp only [hu]; rfl⟩
      intro e he hb
      apply hu
      rw [List.any_eq_true]
      exact ⟨e, he, by simpa using hb⟩

theorem Inv.step {σ} (env : Env σ) (p : Profile) (s : Sys σ) (h : Inv s.shared s.conns) (e : Event σ)
    (hf : match e with
     | .addDevice d => ∀ x ∈ onServer s.shared, x.busId ≠ d.busId
     | _ => True) : Inv (s.step env p e).shared (s.step env p e).conns := by
  cases e with
  | connect c input =>
    simp only [Sys.step]
    split
    · exact h
    · exact h.setIdle c _ (fun _ => rfl)
  | iterate c w =>
    simp only [Sys.step]
    split
    · rename_i x hx
      split
      · rename_i hr
        exact h.iterate env p c x hx hr w
      · exact h
    · exact h
  | cancel c =>
    simp only [Sys.step]
    split
    · rename_i x hx
      split
      · exact h.setIdle c _ (fun hr => by simp at hr)
      · exact h
    · exact h
  | addDevice d =>
    simp only [Sys.step, Shared.addDevice]
    refine ⟨?_, h.keyed, h.held, h.own⟩
    have hp : (List.map Device.busId (s.shared.available ++ [d]) ++ List.map Prod.fst s.shared.used).Perm
        (d.busId :: (List.map Device.busId s.shared.available ++ List.map Prod.fst s.shared.used)) := by
      simp only [List.map_append, List.map_cons, List.map_nil, List.append_assoc, List.cons_append,
        List.nil_append]
      exact List.perm_middle
    rw [hp.nodup_iff, List.nodup_cons]
    refine ⟨?_, h.nodup⟩
    rw [← onServer_busIds h.keyed]
    intro hm
    obtain ⟨x, hx, he⟩ := List.mem_map.mp hm
    exact hf x hx he
  | removeDevice id =>
    simp only [Sys.step]
    rcases removeDevice_cases s.shared id with ⟨d, l1, l2, hl, hd, hn, hr⟩ | ⟨_, _, hr⟩ | ⟨_, _, hr⟩
    · rw [hr]
      refine ⟨?_, h.keyed, h.held, h.own⟩
      have := h.nodup
      rw [hl] at this
      have hp : (List.map Device.busId (l1 ++ d :: l2) ++ List.map Prod.fst s.shared.used).Perm
          (d.busId :: (List.map Device.busId (l1 ++ l2) ++ List.map Prod.fst s.shared.used)) := by
        simp only [List.map_append, List.map_cons, List.append_assoc, List.cons_append]
        exact List.perm_middle
      rw [hp.nodup_iff, List.nodup_cons] at this
      exact this.2
    · rw [hr]; exact h
    · rw [hr]; exact h
  | user f => exact ⟨h.nodup, h.keyed, h.held, h.own⟩

theorem Inv.run {σ} (env : Env σ) (p : Profile) (es : List (Event σ)) : ∀ (s : Sys σ),
    Inv s.shared s.conns → Fresh env p s es →
    Inv (s.run env p es).shared (s.run env p es).conns := by
  induction es with
  | nil => intro s h _; exact h
  | cons e es ih => intro s h hf; exact ih _ (Inv.step env p s h e hf.1) hf.2

theorem Inv.init {σ} (devices : List Device) (w : World σ) (h : (devices.map Device.busId).Nodup) :
    Inv (Sys.init devices w).shared (Sys.init devices w).conns := by
  refine ⟨?_, ?_, ?_, ?_⟩
  · simpa [Sys.init, Shared.newSimulated] using h
  · simp [Sys.init, Shared.newSimulated]
  · intro c x id hx; simp [Sys.init] at hx
  · intro c₁ c₂ x₁ x₂ id _ hx; simp [Sys.init] at hx

end Usbip

namespace Usbip
open Spec

/-! ### Rewriting one iteration -/

theorem iterate_answered {σ} (env : Env σ) (p : Profile) (s : Shared σ) (x : Conn) (cmd : Cmd)
    (rest : Stream) (resp : Resp) (s' : Shared σ) (cur' : Option Bytes) (bytes : Bytes)
    (hr : readCommand p x.input = .ok (cmd, rest))
    (hs : s.serve env p x.current cmd = (.ok resp, s', cur')) (hb : resp.toBytes p = .ok bytes) :
    x.iterate env p s .full = (s', { x with
      input := rest, current := cur', output := x.output ++ bytes
      served := x.served ++ [(cmd, resp)] }) := by
  unfold Conn.iterate
  rw [hr]; simp only [hs, hb]

theorem serve_unchanged_lists {σ} (env : Env σ) (p : Profile) (s : Shared σ) (cur : Option Bytes)
    (cmd : Cmd) (h : isImport cmd = false) :
    (s.serve env p cur cmd).2.1.available = s.available ∧
    (s.serve env p cur cmd).2.1.used = s.used ∧ (s.serve env p cur cmd).2.2 = cur := by
  rcases serve_effect env p s cur cmd with ⟨st, b, d, l1, l2, hc, _⟩ | ⟨st, b, hc, _⟩ | h'
  · rw [hc] at h; simp [isImport] at h
  · rw [hc] at h; simp [isImport] at h
  · exact h'.2

theorem serve_answers {σ} (env : Env σ) (p : Profile) (s : Shared σ) (cur : Option Bytes)
    (cmd : Cmd) (r : Resp) (h : (s.serve env p cur cmd).1 = .ok r) : Answers cmd r := by
  cases cmd with
  | reqDevlist st =>
    simp only [Shared.serve, Outcome.ok.injEq] at h
    exact ⟨s.available, h.symm⟩
  | reqImport st b =>
    simp only [Shared.serve, Shared.import] at h
    split at h
    · simp only [Outcome.ok.injEq] at h
      exact Or.inl ⟨_, h.symm⟩
    · simp only [Outcome.ok.injEq] at h
      exact Or.inr h.symm
  | unlink hd n =>
    simp only [Shared.serve, Outcome.ok.injEq] at h
    exact h.symm
  | submit hd a b c d e f g i =>
    simp only [Shared.serve] at h
    split at h
    · simp at h
    · unfold Shared.submit at h
      dsimp only at h
      split at h
      · simp only [Outcome.ok.injEq] at h
        exact Or.inr h.symm
      · split at h
        · simp only [Outcome.ok.injEq] at h
          exact Or.inl ⟨_, h.symm⟩
        · simp only [Outcome.ok.injEq] at h
          exact Or.inr h.symm
        · simp at h
        · simp at h

theorem representable_of_answers {cmd : Cmd} {r : Resp} (h : Answers cmd r) (hz : Sized r)
    (hm : NoOutData r) :
    Representable r := by
  cases cmd with
  | reqDevlist st =>
    obtain ⟨ds, rfl⟩ := h
    refine ⟨?_, hz.2⟩
    have := hz.1
    simp only [UInt32.toNat_ofNat']
    omega
  | reqImport st b =>
    rcases h with ⟨d, rfl⟩ | rfl
    · simp [Representable]
    · simp [Representable]
  | unlink hd n => cases h; rfl
  | submit hd a b c d e f g i =>
    rcases h with ⟨buf, rfl⟩ | rfl
    · refine ⟨rfl, ?_, rfl⟩
      have h1 : buf.length < 2 ^ 32 := hz
      have h2 : hd.direction.toNat = 1 ∨ buf = [] := hm
      simp only [UInt32.toNat_ofNat']
      split
      · omega
      · rename_i hne
        rcases h2 with h2 | h2
        · exact absurd h2 hne
        · rw [h2]; rfl
    · refine ⟨rfl, ?_, rfl⟩
      simp

/-- In builds with debug assertions a reply that was serialised never has data on OUT. -/
theorem noOutData_checked {p : Profile} (hp : p.debugAssertions = true) {cmd : Cmd} {r : Resp}
    {bs : Bytes} (h : Answers cmd r) (hb : r.toBytes p = .ok bs)
    (hs : Sized r) : NoOutData r := by
  cases r with
  | repDevlist a b c => trivial
  | repImport a b => trivial
  | retUnlink a b => trivial
  | retSubmit hd st al sf np ec buf iso =>
    show hd.direction.toNat = 1 ∨ buf = []
    simp only [Resp.toBytes, Outcome.bind_eq_ok] at hb
    obtain ⟨_, _, _, h2, _⟩ := hb
    have h2 := debugAssert_ok h2 hp
    by_cases hd1 : hd.direction.toNat = 1
    · exact Or.inl hd1
    · right
      have hne : ¬ hd.direction = dirIn := fun e => hd1 (by rw [e]; rfl)
      rw [if_neg hne] at h2
      have hal : al = 0 := by simpa using h2
      cases cmd with
      | reqDevlist _ => obtain ⟨ds, h⟩ := h; simp at h
      | reqImport _ _ => rcases h with ⟨d, h⟩ | h <;> simp at h
      | unlink _ _ => cases h
      | submit hd' a b c d e f g i =>
        rcases h with ⟨buf', h⟩ | h
        · simp only [Resp.retSubmit.injEq] at h
          obtain ⟨_, _, h3, _, _, _, h4, _⟩ := h
          subst h4
          rw [hal] at h3
          have := congrArg UInt32.toNat h3
          simp only [UInt32.toNat_ofNat'] at this
          have h0 : (0 : UInt32).toNat = 0 := rfl
          rw [h0] at this
          apply List.eq_nil_of_length_eq_zero
          have : buf.length < 2 ^ 32 := hs
          omega
        · simp only [Resp.retSubmit.injEq] at h
          exact h.2.2.2.2.2.2.1

theorem import_reply_bytes (p : Profile) (d : Device)
    (h : p.debugAssertions = true → d.path.length ≤ 256 ∧ d.busId.length ≤ 32) :
    ∃ bs, (opRepImportSuccess d).toBytes p = .ok bs := by
  simp only [opRepImportSuccess, Resp.toBytes]
  rw [toBytes_ok p d h]
  exact ⟨_, rfl⟩

theorem busidCompare_eq (b : Bytes) : busidCompare b = cstr b := rfl

theorem cstr_busField {b id : Bytes} (h : BusField b id) : cstr b = id := by
  obtain ⟨_, hn, rfl⟩ := h
  unfold cstr
  have : ∀ n, List.takeWhile (fun b : UInt8 => b != 0) (id ++ List.replicate n 0) = id := by
    intro n
    induction id with
    | nil => cases n <;> simp [List.replicate]
    | cons a l ih =>
      have ha : a ≠ 0 := hn a (by simp)
      simp [ha, ih (by
        rename_i hlen; simp at hlen; omega) (fun b hb => hn b (by simp [hb]))]
  exact this _

end Usbip
