import Verif.Props.Again
import Verif.Lemmas.Panics
import Verif.Props.Codec
import Verif.Spec.Listed
/-! Lemmas for C104. -/

namespace Usbip
open Spec

/-! ## Reading a list -/

theorem grab_more {n : Nat} {bs a b : Bytes} (t : Bytes) (h : grab n bs = some (a, b)) : grab n (bs ++ t) = some (a, b ++ t) := by
  unfold grab at h ⊢
  split at h
  · rename_i hn
    simp only [Option.some.injEq, Prod.mk.injEq] at h
    obtain ⟨rfl, rfl⟩ := h
    rw [if_pos (by rw [List.length_append]; omega), List.take_append_of_le_length hn, List.drop_append_of_le_length hn]
  · cases h

theorem decodeIfs_more (n : Nat) : ∀ {bs : Bytes} {r rest} (t : Bytes), decodeIfs n bs = some (r, rest) →
    decodeIfs n (bs ++ t) = some (r, rest ++ t) := by
  induction n with
  | zero => intro bs r rest t h; simp only [decodeIfs, Option.some.injEq, Prod.mk.injEq] at h ⊢; exact ⟨h.1, by rw [h.2]⟩
  | succ n ih =>
    intro bs r rest t h
    simp only [decodeIfs, Option.bind_eq_bind, Option.bind_eq_some_iff] at h ⊢
    obtain ⟨⟨a, b⟩, h1, ⟨is, b'⟩, h2, h3⟩ := h
    simp only [Option.pure_def, Option.some.injEq, Prod.mk.injEq] at h3
    obtain ⟨h3, rfl⟩ := h3
    exact ⟨(a, b ++ t), grab_more t h1, (is, b' ++ t), ih t h2, by simp [h3]⟩

theorem decodeEntry_more {bs : Bytes} {r rest} (t : Bytes) (h : decodeEntry bs = some (r, rest)) : decodeEntry (bs ++ t) = some (r, rest ++ t) := by
  simp only [decodeEntry, decodeDev, Option.bind_eq_bind, Option.bind_eq_some_iff, Option.pure_def] at h ⊢
  obtain ⟨⟨a, b⟩, ⟨⟨a0, b0⟩, h0, h1⟩, ⟨is, b'⟩, h2, h3⟩ := h
  simp only [Option.some.injEq, Prod.mk.injEq] at h1 h3
  obtain ⟨rfl, rfl⟩ := h1
  obtain ⟨h3, rfl⟩ := h3
  exact ⟨(readDevInfo a0, b0 ++ t), ⟨(a0, b0 ++ t), grab_more t h0, rfl⟩, (is, b' ++ t), decodeIfs_more _ t h2, by simp [h3]⟩

theorem decodeEntries_more (n : Nat) : ∀ {bs : Bytes} {r rest} (t : Bytes), decodeEntries n bs = some (r, rest) →
    decodeEntries n (bs ++ t) = some (r, rest ++ t) := by
  induction n with
  | zero => intro bs r rest t h; simp only [decodeEntries, Option.some.injEq, Prod.mk.injEq] at h ⊢; exact ⟨h.1, by rw [h.2]⟩
  | succ n ih =>
    intro bs r rest t h
    simp only [decodeEntries, Option.bind_eq_bind, Option.bind_eq_some_iff] at h ⊢
    obtain ⟨⟨a, b⟩, h1, ⟨is, b'⟩, h2, h3⟩ := h
    simp only [Option.pure_def, Option.some.injEq, Prod.mk.injEq] at h3
    obtain ⟨h3, rfl⟩ := h3
    exact ⟨(a, b ++ t), decodeEntry_more t h1, (is, b' ++ t), ih t h2, by simp [h3]⟩

/-- A list that can be read is read the same if more follows. -/
theorem decodeDevlist_more {bs : Bytes} {r rest} (t : Bytes) (h : decodeDevlist bs = some (r, rest)) :
    decodeDevlist (bs ++ t) = some (r, rest ++ t) := by
  simp only [decodeDevlist, Option.bind_eq_bind, Option.bind_eq_some_iff] at h ⊢
  obtain ⟨⟨a, b⟩, h1, h2⟩ := h
  refine ⟨(a, b ++ t), grab_more t h1, ?_⟩
  dsimp only at h2 ⊢
  split at h2
  · rename_i hc
    rw [if_pos hc]
    rw [Option.bind_eq_some_iff] at h2 ⊢
    obtain ⟨⟨es, b'⟩, h3, h4⟩ := h2
    simp only [Option.pure_def, Option.some.injEq, Prod.mk.injEq] at h4
    obtain ⟨h4, rfl⟩ := h4
    exact ⟨(es, b' ++ t), decodeEntries_more _ t h3, by simp [h4]⟩
  · cases h2

/-- A beginning of a list is not read as anything else. -/
theorem shownAs_prefix {p : Profile} {ds : List Device} {bytes bs : Bytes} (h : (opRepDevlist ds).toBytes p = .ok bytes)
    (hn : ds.length < 4294967296) (hi : ∀ d ∈ ds, d.interfaces.length ≤ 255) (hb : bs <+: bytes) : ShownAs bs ds := by
  intro r rest hr
  obtain ⟨t, rfl⟩ := hb
  have h1 := C09_devlist_decodes p ds _ [] h hn hi
  rw [List.append_nil, decodeDevlist_more t hr] at h1
  simp only [Option.some.injEq, Prod.mk.injEq, List.append_eq_nil_iff] at h1
  exact ⟨h1.1, h1.2.1⟩

/-! ## How many devices there are -/

section
variable {σ : Type} {env : Env σ} {p : Profile}

theorem amErase_length (k : Bytes) (m : List (Bytes × Device)) : (amErase k m).length ≤ m.length := List.length_filter_le _ _

theorem amErase_less {k : Bytes} {m : List (Bytes × Device)} {d : Device} (h : amGet k m = some d) : (amErase k m).length < m.length := by
  have := amGet_mem h
  unfold amErase
  exact List.length_filter_lt_length_iff_exists.mpr ⟨_, this, by simp⟩

theorem Effect.count {s s' : Shared σ} {cur cur'} (h : Effect s cur s' cur') : (onServer s').length ≤ (onServer s).length := by
  unfold onServer
  simp only [List.length_append, List.length_map]
  cases h with
  | keep ha hu => rw [ha, hu]; exact Nat.le_refl _
  | refuse ha hu => rw [ha, hu]; exact Nat.le_refl _
  | grant d l1 l2 hh ha hu =>
    rw [ha, hu, hh]
    have := amErase_length d.busId s.used
    simp only [amInsert, List.length_append, List.length_cons]
    omega
  | release id d hc hg ha hu =>
    rw [ha, hu]
    have := amErase_less hg
    simp only [List.length_append, List.length_cons, List.length_nil]
    omega

theorem count_event {G : List Device} {N : Net σ} (h : (onServer N.sys.shared).length ≤ G.length) (ev : NetEvent σ) :
    (onServer (N.step env p ev).sys.shared).length ≤ (gave G ev).length := by
  by_cases hit : ∃ k wr, ev = .iterate k wr
  · obtain ⟨k, wr, rfl⟩ := hit
    rcases event_iterate (env := env) (p := p) N k wr with ⟨e1, _⟩ | ⟨x, hx, hr, _, hN, _⟩
    · rw [e1]; exact h
    · rw [hN]; exact Nat.le_trans (iterate_Effect env p N.sys.shared x wr).count h
  · obtain ⟨h1, h2, _⟩ := event_else (env := env) (p := p) N ev (fun k wr he => hit ⟨k, wr, he⟩)
    have hG := (gave_prefix G ev).length_le
    unfold onServer at h ⊢
    simp only [List.length_append, List.length_map] at h ⊢
    rw [h2]
    rcases h1 with ⟨h1, _⟩ | ⟨d, l1, l2, _, h1, h3⟩ | ⟨d, rfl, h1⟩
    · rw [h1]; omega
    · rw [h3]; rw [h1] at h
      simp only [List.length_append, List.length_cons] at h ⊢; omega
    · rw [h1]
      simp only [gave, List.length_append, List.length_cons, List.length_nil]; omega

theorem count_events {G : List Device} (evs : List (NetEvent σ)) : ∀ {N : Net σ}, (onServer N.sys.shared).length ≤ G.length →
    (∀ ev ∈ evs, ∀ d, ev ≠ .addDevice d) → (onServer (N.run env p evs).sys.shared).length ≤ G.length := by
  induction evs with
  | nil => intro N h _; exact h
  | cons ev evs ih =>
    intro N h hall
    have := count_event (env := env) (p := p) h ev
    rw [gave_else (hall ev (List.mem_cons_self ..))] at this
    exact ih this (fun ev' h' => hall ev' (List.mem_cons_of_mem _ h'))

theorem Effect.devs {s s' : Shared σ} {cur cur'} (h : Effect s cur s' cur') : ∀ d ∈ onServer s', d ∈ onServer s := by
  unfold onServer
  have sub : ∀ k, ∀ d ∈ (amErase k s.used).map Prod.snd, d ∈ s.used.map Prod.snd := fun k d hd => by
    obtain ⟨e, he, rfl⟩ := List.mem_map.mp hd
    exact List.mem_map.mpr ⟨e, (List.mem_filter.mp he).1, rfl⟩
  cases h with
  | keep ha hu => rw [ha, hu]; exact fun d h => h
  | refuse ha hu => rw [ha, hu]; exact fun d h => h
  | grant d l1 l2 hh ha hu =>
    rw [ha, hu, hh]
    intro d' hd'
    simp only [amInsert, List.map_cons, List.mem_append, List.mem_cons] at hd' ⊢
    rcases hd' with (h | h) | h | h
    · exact .inl (.inl h)
    · exact .inl (.inr (.inr h))
    · exact .inl (.inr (.inl h))
    · exact .inr (sub _ _ h)
  | release id d hc hg ha hu =>
    rw [ha, hu]
    intro d' hd'
    simp only [List.mem_append, List.mem_singleton] at hd' ⊢
    rcases hd' with (h | h) | h
    · exact .inl h
    · exact .inr (List.mem_map.mpr ⟨_, amGet_mem hg, h.symm⟩)
    · exact .inr (sub _ _ h)

theorem devs_event {G : List Device} {N : Net σ} (h : ∀ d ∈ onServer N.sys.shared, d ∈ G) (ev : NetEvent σ) :
    ∀ d ∈ onServer (N.step env p ev).sys.shared, d ∈ gave G ev := by
  by_cases hit : ∃ k wr, ev = .iterate k wr
  · obtain ⟨k, wr, rfl⟩ := hit
    rcases event_iterate (env := env) (p := p) N k wr with ⟨e1, _⟩ | ⟨x, hx, hr, _, hN, _⟩
    · rw [e1]; exact h
    · rw [hN]; exact fun d hd => h d ((iterate_Effect env p N.sys.shared x wr).devs d hd)
  · obtain ⟨h1, h2, _⟩ := event_else (env := env) (p := p) N ev (fun k wr he => hit ⟨k, wr, he⟩)
    have hG := (gave_prefix G ev).subset
    unfold onServer at h ⊢
    rw [h2]
    rcases h1 with ⟨h1, _⟩ | ⟨d, l1, l2, _, h1, h3⟩ | ⟨d, rfl, h1⟩
    · rw [h1]; exact fun d hd => hG (h d hd)
    · rw [h3]; rw [h1] at h
      intro d' hd'
      refine hG (h d' ?_)
      simp only [List.mem_append, List.mem_cons] at hd' ⊢
      rcases hd' with (h | h) | h
      · exact .inl (.inl h)
      · exact .inl (.inr (.inr h))
      · exact .inr h
    · rw [h1]
      intro d' hd'
      simp only [gave, List.mem_append, List.mem_singleton] at hd' ⊢
      rcases hd' with (h' | h') | h'
      · exact .inl (h d' (List.mem_append_left _ h'))
      · exact .inr h'
      · exact .inl (h d' (List.mem_append_right _ h'))

/-- The devices on the server are ones it has been given, and not more than that. -/
structure OnHand (G : List Device) (N : Net σ) : Prop where
  devs : ∀ d ∈ onServer N.sys.shared, d ∈ G
  count : (onServer N.sys.shared).length ≤ G.length

theorem OnHand.event {G : List Device} {N : Net σ} (h : OnHand G N) (ev : NetEvent σ) : OnHand (gave G ev) (N.step env p ev) :=
  ⟨devs_event h.devs ev, count_event h.count ev⟩

theorem OnHand.events {G : List Device} (evs : List (NetEvent σ)) : ∀ {N : Net σ}, OnHand G N → (∀ ev ∈ evs, ∀ d, ev ≠ .addDevice d) →
    OnHand G (N.run env p evs) := by
  induction evs with
  | nil => intro N h _; exact h
  | cons ev evs ih =>
    intro N h hall
    have := h.event (env := env) (p := p) ev
    rw [gave_else (hall ev (List.mem_cons_self ..))] at this
    exact ih this (fun ev' h' => hall ev' (List.mem_cons_of_mem _ h'))

end

/-! ## A client that asks for the list -/

/-- Whatever part of the request is there, reading it does not panic. -/
theorem devlist_read {p : Profile} {s : Stream} (h : s.bytes <+: wireCmd (.reqDevlist 0)) : readCommand p s ≠ .panic := by
  intro hp
  obtain ⟨_, hb⟩ := (readCommand_panic p s).mp hp
  obtain ⟨u, hu⟩ := h
  have hw : wireCmd (.reqDevlist 0) = [0x01, 0x11, 0x80, 0x05, 0, 0, 0, 0] := by decide
  rw [hw] at hu
  rcases hb with ⟨v, cc, st, rest, h1, h2, h3, h4, h5⟩ | ⟨v, cc, ids, dir, rest, h1, h2, h3, h4, h5, _⟩
  · rw [h1] at hu
    match st, h4 with
    | [a, b, c, d], _ =>
      simp only [List.mem_cons, List.not_mem_nil, or_false] at h2 h3
      rcases h2 with rfl | rfl <;> rcases h3 with rfl | rfl <;> simp at hu h5
      obtain ⟨h6, h7, h8, h9, _⟩ := hu
      exact h5 h6 h7 h8 h9
  · rw [h1] at hu
    have := congrArg List.length hu
    simp only [List.mem_cons, List.not_mem_nil, or_false] at h2 h3
    rcases h2 with rfl | rfl <;> rcases h3 with rfl | rfl <;> simp [h4, h5] at this <;> omega

section
variable {τ : Type} {code : Code τ} {env : Env (HandlerId → τ)} {p : Profile} {devices : List Device} {dev : Device}
  {w : World (HandlerId → τ)}
  {e : MachineExec code env p (Machine.init code devices w)} {H : Nat → Prop} {busid : Nat → Bytes} {devid : Nat → UInt32}
  {d : Nat → Nat → Driver} {ls : Nat → List (MachineLabel (HandlerId → τ))} {L : Nat → Nat → List (Bytes × Handled)}
  {c : Nat} {heard : Nat → Bytes}

theorem AllTold.held (hA : AllTold e ls L) (n : Nat) : OnHand (devicesBy e.label devices n) (behindNet env p devices w (ls n)) := by
  induction n with
  | zero =>
    rw [hA.zero]
    have : onServer (Net.init devices w).sys.shared = devices := List.append_nil _
    exact ⟨fun d hd => (by rw [show behindNet env p devices w [] = Net.init devices w from rfl, this] at hd; exact hd),
      by rw [show behindNet env p devices w [] = Net.init devices w from rfl, this]; exact Nat.le_refl _⟩
  | succ n ih =>
    rcases hA.step n with ⟨e1, e0, _⟩ | ⟨lb, ev, hl, hev, e0, e1, _⟩ | ⟨evs, hall, e0, e1, _⟩
    · rw [e0, e1]; exact ih
    · rw [e0, e1]; exact ih.event ev
    · rw [e0, e1]; exact ih.events evs (fun ev h => (hall ev h).1)

/-- The list that a client is sent at time `m`. -/
abbrev shelf (env : Env (HandlerId → τ)) (p : Profile) (devices : List Device) (w : World (HandlerId → τ))
    (ls : List (MachineLabel (HandlerId → τ))) : List Device := (behindNet env p devices w ls).sys.shared.available

theorem devlist_wf : ∀ q ∈ [Cmd.reqDevlist 0], WellFormed true q := by
  intro q hq
  rw [List.mem_singleton.mp hq]
  exact fun _ => rfl

theorem Spec.Lister.asked (hl : Lister e c heard) (hA : AllTold e ls L) (n : Nat) :
    Log p ((L c n).map (·.2)) ∧ ((L c n).map (·.2)).map (·.1) <+: [.reqDevlist 0] :=
  (hA.told c n).asked_of devlist_wf (by rw [List.flatMap_cons, List.flatMap_nil, List.append_nil]; exact hl.speaks n)

/-- What is there to be read is a part of the request. -/
theorem Spec.Lister.unread (hl : Lister e c heard) (hA : AllTold e ls L) {n : Nat} {x : Conn}
    (hx : (behindNet env p devices w (ls n)).sys.conns c = some x) (hr : x.status = .running) :
    (L c n).flatMap (·.1) ++ x.input.bytes <+: arrivedBy e.label c n := by
  have hN := (hA.told c n).log.accepted (told_accepted (hA.told c n) hx)
  have := hN.input x hx
  rwa [if_pos hr] at this

/-- When the request is handled. -/
theorem Spec.Lister.handled (hl : Lister e c heard) (hA : AllTold e ls L) {n : Nat} (h : L c n ≠ []) :
    ∃ m used bytes, m < n ∧ L c m = [] ∧ wireCmd (.reqDevlist 0) <+: arrivedBy e.label c m ∧
      L c n = [(used, .reqDevlist 0, opRepDevlist (shelf env p devices w (ls m)), bytes)] ∧
      (opRepDevlist (shelf env p devices w (ls m))).toBytes p = .ok bytes := by
  induction n with
  | zero =>
    have := (hA.told c 0).made
    rw [hA.zero] at this
    exact absurd this h
  | succ n ih =>
    have one := (hl.asked hA (n + 1)).2
    by_cases h0 : L c n = []
    rotate_left
    · obtain ⟨m, used, bytes, h1, h2, h3, h4, h5⟩ := ih h0
      refine ⟨m, used, bytes, by omega, h2, h3, ?_, h5⟩
      obtain ⟨t, ht⟩ := hA.grows c n
      have := one.length_le
      rw [← ht, h4] at this ⊢
      simp only [List.length_map, List.length_append, List.length_cons, List.length_nil] at this
      rw [List.length_eq_zero_iff.mp (show t.length = 0 by omega), List.append_nil]
    · rcases hA.step n with ⟨_, _, e2⟩ | ⟨lb, ev, hlb, hev, _, e1, e2⟩ | ⟨evs, _, _, _, e2⟩
      · rw [e2] at h; exact absurd h0 h
      rotate_left
      · rw [e2] at h; exact absurd h0 h
      rw [e2, h0, List.nil_append] at h one ⊢
      obtain ⟨wr, x, cmd, rest, resp, bytes, used, rfl, hx, hr, _, hrd, hs, hm, hN, hE⟩ := made_turn h
      rw [hm] at one ⊢
      simp only [List.map_cons, List.map_nil, List.cons_prefix_cons, List.nil_prefix, and_true] at one
      subst one
      simp only [Shared.serve, Outcome.ok.injEq] at hs
      subst hs
      refine ⟨n, used, bytes, Nat.lt_succ_self n, h0, ?_, rfl, ?_⟩
      · have h1 := hl.unread hA hx hr
        rw [h0, List.flatMap_nil, List.nil_append] at h1
        obtain ⟨u, hu, hu2, _⟩ := framed_readCommand p _ _ _ hrd
        have hbytes : x.input.bytes = u ++ rest.bytes := by rw [hu]
        rw [hbytes] at h1
        have h2 := (List.prefix_append u rest.bytes).trans h1
        obtain ⟨t, ht⟩ := h2.trans (hl.speaks n)
        have h3 := (reads_prefix (p := p) [(u, .reqDevlist 0)] [.reqDevlist 0]
          (fun g hg => by rw [List.mem_singleton.mp hg]; exact hu2) (fun q hq => wellFormed_weaken (devlist_wf q hq))
          (by simp only [List.flatMap_cons, List.flatMap_nil, List.append_nil]; exact ⟨t, ht⟩)).2 t
          (by simp only [List.flatMap_cons, List.flatMap_nil, List.append_nil]; exact ht)
        simp only [List.length_cons, List.length_nil, List.drop_succ_cons, List.drop_nil, List.flatMap_nil] at h3
        rw [h3, List.append_nil] at ht
        rw [← ht]; exact h2
      · have := (hl.asked hA (n + 1)).1
        rw [e2, h0, List.nil_append, hm] at this
        exact (this _ (List.mem_singleton.mpr rfl)).2.1

/-- The list can be sent. -/
theorem AllTold.sendable (hA : AllTold e ls L) (hf : Listable e devices) (n : Nat) :
    (∃ bytes, (opRepDevlist (shelf env p devices w (ls n))).toBytes p = .ok bytes) ∧
    (shelf env p devices w (ls n)).length < 4294967296 ∧ ∀ d ∈ shelf env p devices w (ls n), d.interfaces.length ≤ 255 := by
  have hh := hA.held n
  have hd : ∀ d ∈ shelf env p devices w (ls n), d ∈ devicesBy e.label devices n := fun d hd => hh.devs d (List.mem_append_left _ hd)
  refine ⟨C09_devlist_serialises p _ (fun hp d hd' => hf.names hp n d (hd d hd')), ?_, fun d hd' => hf.interfaces n d (hd d hd')⟩
  have h1 := hh.count
  have h2 := hf.many n
  unfold onServer at h1
  rw [List.length_append] at h1
  exact Nat.lt_of_le_of_lt (Nat.le_trans (Nat.le_add_right _ _) h1) h2

theorem status_else {σ} {env : Env σ} {p : Profile} (N : Net σ) (ev : NetEvent σ) (hit : ∀ k wr, ev ≠ .iterate k wr) {k : Nat} {x' : Conn}
    (h : (N.step env p ev).sys.conns k = some x') : x'.status ≠ .panicked ∨ ∃ x, N.sys.conns k = some x ∧ x.status = .panicked := by
  have one : ∀ (j : Nat) (x y : Conn), N.sys.conns j = some x → (y.status = .panicked → x.status = .panicked) →
      setConn N.sys.conns j y k = some x' → x'.status ≠ .panicked ∨ ∃ x, N.sys.conns k = some x ∧ x.status = .panicked := by
    intro j x y hx hy he
    by_cases hp : x'.status = .panicked
    rotate_left
    · exact .inl hp
    right
    by_cases hk : k = j
    · subst hk
      simp only [setConn, if_true, Option.some.injEq] at he
      subst he
      exact ⟨x, hx, hy hp⟩
    · rw [setConn_ne hk] at he; exact ⟨x', he, hp⟩
  have same : N.sys.conns k = some x' → x'.status ≠ .panicked ∨ ∃ x, N.sys.conns k = some x ∧ x.status = .panicked := by
    intro he
    by_cases hp : x'.status = .panicked
    · exact .inr ⟨x', he, hp⟩
    · exact .inl hp
  cases ev with
  | addDevice d => exact same h
  | iterate k wr => exact absurd rfl (hit k wr)
  | user f cr => exact same h
  | connect j =>
    simp only [Net.step, Sys.step] at h
    cases hk : N.sys.conns j with
    | some y => rw [hk] at h; exact same h
    | none =>
      rw [hk] at h
      simp only [setConn] at h
      split at h
      · cases h; exact .inl (fun h => by cases h)
      · exact same h
  | arrive j bs =>
    simp only [Net.step] at h
    split at h
    · rename_i x hx he; refine one j x _ hx ?_ h; exact id
    · exact same h
  | hangup j er =>
    simp only [Net.step] at h
    split at h
    · rename_i x hx he; refine one j x _ hx ?_ h; exact id
    · exact same h
  | cancel j =>
    simp only [Net.step, Sys.step] at h
    cases hk : N.sys.conns j with
    | none => rw [hk] at h; exact same h
    | some x =>
      rw [hk] at h
      dsimp only at h
      split at h
      · exact one j x _ hk (fun h => by cases h) h
      · exact same h
  | removeDevice id =>
    simp only [Net.step, Sys.step] at h
    rcases removeDevice_cases N.sys.shared id with ⟨d, l1, l2, e1, e0, _, e2⟩ | ⟨_, _, e2⟩ | ⟨_, _, e2⟩ <;> exact same h

/-- Somebody whose task has not panicked, and who has no device. -/
abbrev Untroubled {σ} (N : Net σ) (c : Nat) : Prop := ∀ x, N.sys.conns c = some x → x.current = none ∧ x.status ≠ .panicked

theorem calm_else {σ} {env : Env σ} {p : Profile} {N : Net σ} {c : Nat} (h : Untroubled N c) {ev : NetEvent σ} (hit : ∀ k wr, ev ≠ .iterate k wr) :
    Untroubled (N.step env p ev) c := by
  intro x' hx'
  constructor
  · rcases (event_else (env := env) (p := p) N ev hit).2.2.1 c x' hx' with h0 | ⟨x, hx, h1, _⟩
    · exact h0
    · rw [← h1]; exact (h x hx).1
  · rcases status_else N ev hit hx' with h0 | ⟨x, hx, h1⟩
    · exact h0
    · exact absurd h1 (h x hx).2

theorem calm_elses {σ} {env : Env σ} {p : Profile} {c : Nat} (evs : List (NetEvent σ)) : ∀ {N : Net σ}, Untroubled N c →
    (∀ ev ∈ evs, ∀ k wr, ev ≠ .iterate k wr) → Untroubled (N.run env p evs) c := by
  induction evs with
  | nil => intro N h _; exact h
  | cons ev evs ih =>
    intro N h hall
    exact ih (N := N.step env p ev) (calm_else h (hall ev (List.mem_cons_self ..))) (fun ev' h' => hall ev' (List.mem_cons_of_mem _ h'))

/-- The task of a client that asks for the list does not panic. -/
theorem Spec.Lister.calm (hl : Lister e c heard) (hA : AllTold e ls L) (hf : Listable e devices) (n : Nat) :
    Untroubled (behindNet env p devices w (ls n)) c := by
  induction n with
  | zero => rw [hA.zero]; intro x hx; cases hx
  | succ n ih =>
    rcases hA.step n with ⟨e1, _, _⟩ | ⟨lb, ev, hlb, hev, _, e1, e2⟩ | ⟨evs, hall, _, e1, _⟩
    · rw [e1]; exact ih
    rotate_left
    · rw [e1]; exact calm_elses evs ih (fun ev h => (hall ev h).2.2)
    rw [e1]
    by_cases hit : ∃ k wr, ev = .iterate k wr
    rotate_left
    · exact calm_else ih (fun k wr he => hit ⟨k, wr, he⟩)
    obtain ⟨k, wr, rfl⟩ := hit
    rcases event_iterate (env := env) (p := p) (behindNet env p devices w (ls n)) k wr with ⟨g, _⟩ | ⟨x, hx, hr, hrdy, hN, hE, hm, ho⟩
    · rw [g]; exact ih
    rw [show Untroubled ((behindNet env p devices w (ls n)).step env p (.iterate k wr)) c = ∀ x,
      ((behindNet env p devices w (ls n)).step env p (.iterate k wr)).sys.conns c = some x → x.current = none ∧ x.status ≠ .panicked from rfl, hN]
    by_cases hk : c = k
    rotate_left
    · dsimp only
      rw [setConn_ne hk]; exact ih
    subst hk
    intro x' hx'
    simp only [setConn, if_true, Option.some.injEq] at hx'
    obtain ⟨hcur, hst⟩ := ih x hx
    have hun := (hl.unread hA hx hr).trans (hl.speaks n)
    have hpart : x.input.bytes <+: wireCmd (.reqDevlist 0) ∨ x.input.bytes = [] := by
      by_cases h0 : L c n = []
      · rw [h0] at hun; exact .inl hun
      · right
        have hN := (hA.told c n).log.accepted (told_accepted (hA.told c n) hx)
        obtain ⟨t, ht⟩ := hun
        have h3 := (reads_prefix (p := p) ((L c n).map (fun e => (e.1, e.2.1))) [.reqDevlist 0]
          (fun g hg => by
            obtain ⟨e', he', rfl⟩ := List.mem_map.mp hg
            exact hN.reads e' he') (fun q hq => wellFormed_weaken (devlist_wf q hq))
          (by
            rw [List.flatMap_map]
            simp only [List.flatMap_cons, List.flatMap_nil, List.append_nil]
            rw [← ht, List.append_assoc]; exact List.prefix_append _ _)).2 (x.input.bytes ++ t)
          (by
            rw [List.flatMap_map]
            simp only [List.flatMap_cons, List.flatMap_nil, List.append_nil]
            rw [← ht, List.append_assoc])
        have hlen : 1 ≤ (L c n).length := List.length_pos_iff.mpr h0
        rw [List.length_map, List.drop_eq_nil_of_le (by simpa using hlen), List.flatMap_nil] at h3
        exact (List.append_eq_nil_iff.mp h3).1
    have hnp : readCommand p x.input ≠ .panic := by
      rcases hpart with h | h
      · exact devlist_read h
      · exact devlist_read (by rw [h]; exact List.nil_prefix)
    have hcmd : ∀ cmd rest, readCommand p x.input = .ok (cmd, rest) → cmd = .reqDevlist 0 := by
      intro cmd rest hrd
      rcases hpart with h | h
      · obtain ⟨u, hu, hu2, _⟩ := framed_readCommand p _ _ _ hrd
        have hbytes : x.input.bytes = u ++ rest.bytes := by rw [hu]
        have := (reads_prefix (p := p) [(u, cmd)] [.reqDevlist 0]
          (fun g hg => by rw [List.mem_singleton.mp hg]; exact hu2) (fun q hq => wellFormed_weaken (devlist_wf q hq))
          (by
            simp only [List.flatMap_cons, List.flatMap_nil, List.append_nil]
            rw [hbytes] at h
            exact (List.prefix_append _ _).trans h)).1
        simpa using this
      · exfalso
        obtain ⟨u, hu, hu2, _⟩ := framed_readCommand p _ _ _ hrd
        have hbytes : x.input.bytes = u ++ rest.bytes := by rw [hu]
        rw [h] at hbytes
        have hu0 := (List.append_eq_nil_iff.mp hbytes.symm).1
        have := hu2 [] .unexpectedEof
        rw [hu0] at this
        cases this
    have hserve : (behindNet env p devices w (ls n)).sys.shared.serve env p x.current (.reqDevlist 0) =
      (.ok (opRepDevlist (shelf env p devices w (ls n))), (behindNet env p devices w (ls n)).sys.shared, x.current) := rfl
    have hi := iterate_res env p (behindNet env p devices w (ls n)).sys.shared x wr
    rw [hx'] at hi
    generalize (x.iterate env p (behindNet env p devices w (ls n)).sys.shared wr).1 = s' at hi
    cases hi with
    | done e s' hrd hrel => exact ⟨rfl, by dsimp only; split <;> simp⟩
    | missing e hrd hrel => rw [hcur] at hrel; cases hrel
    | readPanic hrd => rcases hrd with h | h
                       · exact absurd h hnp
                       · exact absurd h (readCommand_ends p _)
    | answered cmd rest resp s' cur' bytes hrd hs hb hw =>
      rw [hcmd cmd rest hrd, hserve] at hs
      cases hs
      exact ⟨hcur, hst⟩
    | writeFailed cmd rest resp s' cur' bytes n e hrd hs hb hw =>
      rw [hcmd cmd rest hrd, hserve] at hs
      cases hs
      exact ⟨hcur, fun h => by cases h⟩
    | writeCut cmd rest resp s' cur' bytes n hrd hs hb hw =>
      rw [hcmd cmd rest hrd, hserve] at hs
      cases hs
      exact ⟨hcur, fun h => by cases h⟩
    | servePanic cmd rest hrd hs =>
      exfalso
      rw [hcmd cmd rest hrd, hserve] at hs
      rcases hs with hs | ⟨r, h1, h2⟩
      · exact hs _ rfl
      · cases h1
        obtain ⟨bytes, hb⟩ := (hA.sendable hf n).1
        exact h2 _ hb

/-- A device that is on the shelf is there until a host is given it. -/
theorem still_there (hA : AllTold e ls L) (ha : ∀ c, H c → Alongside e c (busid c) (devid c) (d c))
    (hE : ∀ c, H c → Exported e devices dev (busid c)) (hpath : dev.path.length ≤ 256) (hW : WantedBy e H dev.busId) {h : Nat} (hh : H h)
    {m k : Nat} (hmk : m ≤ k) (hav : dev ∈ shelf env p devices w (ls m)) (h0 : L h k = [])
    (hone : ∀ h2, H h2 → h2 ≠ h → GivenBy dev (L h2 k) → GivenBy dev (L h2 m)) : dev ∈ shelf env p devices w (ls k) := by
  have hm0 : L h m = [] := by
    have := hA.mono h hmk
    rw [h0] at this; exact List.prefix_nil.mp this
  have hnone : ∀ {n}, L h n = [] → ¬ GivenBy dev (L h n) := by
    rintro n hn ⟨g, t, e, _⟩
    rw [hn] at e; cases e
  let H' : Nat → Prop := fun c => H c ∧ ¬ GivenBy dev (L c m)
  have hh' : H' h := ⟨hh, hnone hm0⟩
  have ha' : ∀ c, H' c → Alongside e c (busid c) (devid c) (d c) := fun c hc => ha c hc.1
  have hE' : ∀ c, H' c → Exported e devices dev (busid c) := fun c hc => hE c hc.1
  obtain ⟨hname, hG⟩ := hE h hh
  have hid : dev.busId.length ≤ 32 := by
    rw [hname, ← (ha h hh).busid]
    exact (List.takeWhile_prefix _).length_le
  have key : ∀ j, m ≤ j → Placed (devicesBy e.label devices j) dev H' (behindNet env p devices w (ls j)) (fun c => L c j) := by
    intro j hj
    induction hj with
    | refl => exact ⟨.inr (.inl hav), (placed hA ha hE hpath hW hh m).over⟩
    | @step j hj ih =>
      have hC := contest hA ha' hE' hh' j
      have hG' := hG (j + 1)
      rcases hA.step j with ⟨e1, e0, e2⟩ | ⟨lb, ev, hl, hev, e0, e1, e2⟩ | ⟨evs, hall, e0, e1, e2⟩
      · simp only [e0, e1, e2]; exact ih
      · rw [e0] at hG'
        simp only [e0, e1, e2]
        refine ih.event hpath hid hC.stock ev hG' (fun _ _ _ => turns hA ha' hE' j)
          (fun hd => hW.kept j lb hl (by rw [hev, hd])) (fun k wr _ hk x hx hr cmd rest st b hrd hc => ?_)
        by_cases hkH : H k
        · have hgk : GivenBy dev (L k m) := Classical.byContradiction fun hn => hk ⟨hkH, hn⟩
          have hne : L k j ≠ [] := by
            obtain ⟨t, ht⟩ := hA.mono k hj
            obtain ⟨g, t', e, _⟩ := hgk
            intro h0
            rw [h0] at ht
            rw [(List.append_eq_nil_iff.mp ht).1] at e
            cases e
          have := ((turns hA ha hE j).next k hkH x hx hr cmd rest hrd).2 hne
          rw [hc] at this; cases this
        · exact elsewhere_of (hW.others k hkH) (hA.told k j) hx hr hrd hc
      · simp only [e0, e1, e2]
        exact ih.events (hG j) hpath hid evs hC hall
  rcases (key k hmk).ok with hnot | hav' | ⟨c2, hc2, g2, _⟩
  · refine absurd ?_ hnot
    exact (devicesBy_prefix e.label devices hmk).subset ((hA.held m).devs dev (List.mem_append_left _ hav))
  · exact hav'
  · by_cases hne : c2 = h
    · subst hne; exact absurd g2 (hnone h0)
    · exact absurd (hone c2 hc2.1 hne g2) hc2.2

/-- A device that the server was given and that is not on the shelf is with a host. -/
theorem with_host (hb : Behaves code env) (hA : AllTold e ls L) (ha : ∀ c, H c → Alongside e c (busid c) (devid c) (d c))
    (hE : ∀ c, H c → Exported e devices dev (busid c)) (hpath : dev.path.length ≤ 256) (hW : WantedBy e H dev.busId) {h : Nat} (hh : H h)
    {n : Nat} (hd : dev ∈ devicesBy e.label devices n) (hav : dev ∉ shelf env p devices w (ls n)) :
    ∃ c2, H c2 ∧ GivenBy dev (L c2 n) ∧ Keeps (e.state n) c2 dev := by
  have hP := placed hA ha hE hpath hW hh n
  rcases hP.ok with hnot | hav' | ⟨c2, hc2, g2, x, hx, hcur⟩
  · exact absurd hd hnot
  · exact absurd hav' hav
  refine ⟨c2, hc2, g2, ?_⟩
  have hacc := told_accepted (hA.told c2 n) hx
  cases hy : (e.state n).whole.fine.cfg.conns c2 with
  | none => exact absurd hy ((hA.told c2 n).accepted hb hacc)
  | some y =>
    refine ⟨y, hy, ?_⟩
    by_cases hr : y.status = .running
    · exact .inl hr
    · right
      have hF := fed hb (ha c2 hc2) (fun n => (ls n, L c2 n)) (fun n => ⟨hA.told c2 n, hA.grows c2 n⟩) n
      have h4 := (C81_explained code env hb p devices w _ _ (hA.told c2 n).inv.whole).2.2.2.1 c2 (hF.rest y hy hr)
      rw [hy, Option.map_some] at h4
      have hx' : (behindNet env p devices w (ls n)).sys.conns c2 = _ := h4
      rw [hx] at hx'
      cases hx'
      refine ⟨hcur, hr, fun hcl => ?_⟩
      have := hP.over c2 _ hx hcl
      rw [hcur] at this; cases this

end

end Usbip
