import Verif.Spec.Exports
import Verif.Lemmas.Life
/-! Helper lemmas: where a device with a bus id of its own is, on a server to which devices are added. -/

namespace Usbip
open Spec

/-! ## The devices given -/

theorem single_mem {dev : Device} {G : List Device} (h : Single dev G) {d : Device} (hd : d ∈ G) (he : d.busId = dev.busId) : d = dev := by
  have : d ∈ G.filter (fun d => d.busId = dev.busId) := List.mem_filter.mpr ⟨hd, by simpa using he⟩
  exact List.mem_singleton.mp (h.subset this)

theorem single_prefix {dev : Device} {G G' : List Device} (h : Single dev G') (hp : G <+: G') : Single dev G :=
  (hp.filter _).trans h

theorem single_length {dev : Device} {G : List Device} (h : Single dev G) : (G.filter (fun d => d.busId = dev.busId)).length ≤ 1 :=
  h.length_le

/-- A device is not added twice. -/
theorem single_fresh {dev : Device} {G : List Device} {d : Device} (h : Single dev (G ++ [d])) (hd : dev ∈ G) : d.busId ≠ dev.busId := by
  intro he
  have := single_length h
  rw [List.filter_append, List.length_append] at this
  have h1 : 0 < (G.filter (fun d => d.busId = dev.busId)).length :=
    List.length_pos_of_mem (List.mem_filter.mpr ⟨hd, by simp⟩)
  have h2 : ([d].filter (fun d => d.busId = dev.busId)).length = 1 := by simp [he]
  omega

/-- What the server has been given after an event. -/
def gave {σ} (G : List Device) : NetEvent σ → List Device
  | .addDevice d => G ++ [d]
  | _ => G

theorem gave_prefix {σ} (G : List Device) (ev : NetEvent σ) : G <+: gave G ev := by
  cases ev <;> first | exact List.prefix_append _ _ | exact List.prefix_refl _

theorem gave_else {σ} {G : List Device} {ev : NetEvent σ} (h : ∀ d, ev ≠ .addDevice d) : gave G ev = G := by
  cases ev with
  | addDevice d => exact absurd rfl (h d)
  | _ => rfl

theorem gaves_prefix {σ} (evs : List (NetEvent σ)) : ∀ G, G <+: evs.foldl gave G := by
  induction evs with
  | nil => exact fun G => List.prefix_refl _
  | cons ev evs ih => exact fun G => (gave_prefix G ev).trans (ih _)

theorem gaves_else {σ} {evs : List (NetEvent σ)} (h : ∀ ev ∈ evs, ∀ d, ev ≠ .addDevice d) (G : List Device) : evs.foldl gave G = G := by
  induction evs generalizing G with
  | nil => rfl
  | cons ev evs ih =>
    rw [List.foldl_cons, gave_else (h ev (List.mem_cons_self ..))]
    exact ih (fun ev' hm => h ev' (List.mem_cons_of_mem _ hm)) G

/-- The events of a label. -/
theorem label_events {σ} (ml : MachineLabel σ) :
    (∃ lb ev, ml = .inner lb ∧ tcpEvent lb = some ev ∧ (toServer ml).filterMap tcpEvent = [ev]) ∨
    (∀ ev ∈ (toServer ml).filterMap tcpEvent, (∀ d, ev ≠ .addDevice d) ∧ (∀ i, ev ≠ .removeDevice i) ∧ ∀ k wr, ev ≠ .iterate k wr) ∧
    addedIn (some ml) = [] := by
  cases ml with
  | inner lb =>
    cases hl : tcpEvent lb with
    | none => right; simp [toServer, hl, addedIn]
    | some ev => exact .inl ⟨lb, ev, rfl, hl, by simp [toServer, hl]⟩
  | accept k c' bs fin =>
    right
    refine ⟨fun ev hev => ?_, rfl⟩
    obtain ⟨lb', hm, hev⟩ := List.mem_filterMap.mp hev
    simp only [toServer, List.mem_cons] at hm
    rcases hm with rfl | rfl | hm
    · cases hev; exact ⟨fun _ h => (nomatch h), fun _ h => (nomatch h), fun _ _ h => (nomatch h)⟩
    · cases hev; exact ⟨fun _ h => (nomatch h), fun _ h => (nomatch h), fun _ _ h => (nomatch h)⟩
    · cases fin with
      | none => simp at hm
      | some er =>
        simp only [Option.map_some, Option.toList, List.mem_singleton] at hm
        subst hm
        cases hev; exact ⟨fun _ h => (nomatch h), fun _ h => (nomatch h), fun _ _ h => (nomatch h)⟩
  | serve => right; simp [toServer, addedIn]
  | dial => right; simp [toServer, addedIn]
  | acceptErr => right; simp [toServer, addedIn]
  | dropServe => right; simp [toServer, addedIn]
  | early => right; simp [toServer, addedIn]
  | earlyEnd => right; simp [toServer, addedIn]

theorem gave_event {σ} {lb : TcpLabel σ} {ev : NetEvent σ} (h : tcpEvent lb = some ev) (G : List Device) :
    gave G ev = G ++ addedIn (some (.inner lb)) := by
  simp only [addedIn, h]
  cases ev <;> simp [gave]

/-- What the server has been given after a step. -/
theorem gave_label {σ} (lab : Option (MachineLabel σ)) (G : List Device) :
    ((lab.toList.flatMap toServer).filterMap tcpEvent).foldl gave G = G ++ addedIn lab := by
  cases lab with
  | none => simp [addedIn]
  | some ml =>
    simp only [Option.toList, List.flatMap_cons, List.flatMap_nil, List.append_nil]
    rcases label_events ml with ⟨lb, ev, rfl, h1, h2⟩ | ⟨hall, h⟩
    · rw [h2, List.foldl_cons, List.foldl_nil, gave_event h1]
    · rw [gaves_else (fun ev hev => (hall ev hev).1), h, List.append_nil]

theorem devicesBy_prefix {σ} (label : Nat → Option (MachineLabel σ)) (devices : List Device) {n m : Nat} (h : n ≤ m) :
    devicesBy label devices n <+: devicesBy label devices m := by
  induction h with
  | refl => exact List.prefix_refl _
  | step _ ih => exact ih.trans (List.prefix_append _ _)

/-- Nothing is added. -/
theorem devicesBy_fixed {σ} {label : Nat → Option (MachineLabel σ)} {devices : List Device}
    (h : ∀ n lb d, label n = some (.inner lb) → tcpEvent lb ≠ some (.addDevice d)) (n : Nat) : devicesBy label devices n = devices := by
  induction n with
  | zero => rfl
  | succ n ih =>
    have : addedIn (label n) = [] := by
      cases hl : label n with
      | none => rfl
      | some ml =>
        rcases label_events ml with ⟨lb, ev, rfl, h1, _⟩ | ⟨_, h⟩
        · simp only [addedIn, h1]
          cases ev with
          | addDevice d => exact absurd h1 (h n lb d hl)
          | _ => rfl
        · exact h
    rw [devicesBy, ih, this, List.append_nil]

/-! ## What one event does -/

section
variable {σ : Type} {env : Env σ} {p : Profile} {dev : Device}

/-- What an event that is not an iteration does. -/
theorem event_else (N : Net σ) (ev : NetEvent σ) (hit : ∀ k wr, ev ≠ .iterate k wr) :
    ((N.step env p ev).sys.shared.available = N.sys.shared.available ∧ (∀ d, ev ≠ .addDevice d) ∨
      (∃ d l1 l2, ev = .removeDevice d.busId ∧ N.sys.shared.available = l1 ++ d :: l2 ∧
        (N.step env p ev).sys.shared.available = l1 ++ l2) ∨
      ∃ d, ev = .addDevice d ∧ (N.step env p ev).sys.shared.available = N.sys.shared.available ++ [d]) ∧
    (N.step env p ev).sys.shared.used = N.sys.shared.used ∧
    (∀ k x', (N.step env p ev).sys.conns k = some x' → x'.current = none ∨
      ∃ x, N.sys.conns k = some x ∧ x.current = x'.current ∧ (x'.status = .running → x.status = .running) ∧ (x'.status = .closed → x.status = .closed)) ∧
    ∀ k x, N.sys.conns k = some x → ∃ x', (N.step env p ev).sys.conns k = some x' ∧ x'.current = x.current := by
  have same : ∀ (S : Nat → Option Conn), S = N.sys.conns → (∀ k x', S k = some x' → x'.current = none ∨
      ∃ x, N.sys.conns k = some x ∧ x.current = x'.current ∧ (x'.status = .running → x.status = .running) ∧ (x'.status = .closed → x.status = .closed)) ∧
      ∀ k x, N.sys.conns k = some x → ∃ x', S k = some x' ∧ x'.current = x.current := by
    rintro S rfl
    exact ⟨fun k x h => .inr ⟨x, h, rfl, id, id⟩, fun k x h => ⟨x, h, rfl⟩⟩
  have one : ∀ (k : Nat) (x y : Conn), N.sys.conns k = some x → y.current = x.current → (y.status = .running → x.status = .running) →
      (y.status = .closed → x.status = .closed) → (∀ k' x', setConn N.sys.conns k y k' = some x' → x'.current = none ∨
      ∃ x, N.sys.conns k' = some x ∧ x.current = x'.current ∧ (x'.status = .running → x.status = .running) ∧ (x'.status = .closed → x.status = .closed)) ∧
      ∀ k' x, N.sys.conns k' = some x → ∃ x', setConn N.sys.conns k y k' = some x' ∧ x'.current = x.current := by
    intro k x y hx hc hs hs2
    refine ⟨fun k' x' h => ?_, fun k' x1 h => ?_⟩
    · simp only [setConn] at h
      split at h
      · rename_i e; cases h; subst e; exact .inr ⟨x, hx, hc.symm, hs, hs2⟩
      · exact .inr ⟨x', h, rfl, id, id⟩
    · by_cases e : k' = k
      · subst e; rw [hx] at h; cases h; exact ⟨y, by simp only [setConn, if_true], hc⟩
      · exact ⟨x1, by rw [setConn_ne e]; exact h, rfl⟩
  cases ev with
  | addDevice d => exact ⟨.inr (.inr ⟨d, rfl, rfl⟩), rfl, same _ rfl⟩
  | iterate k wr => exact absurd rfl (hit k wr)
  | user f cr => exact ⟨.inl ⟨rfl, fun _ h => (nomatch h)⟩, rfl, same _ rfl⟩
  | connect k =>
    refine ⟨.inl ⟨?_, fun _ h => (nomatch h)⟩, ?_⟩ <;> simp only [Net.step, Sys.step] <;> cases hk : N.sys.conns k with
    | some y => first | rfl | exact ⟨rfl, same _ rfl⟩
    | none =>
      first
      | rfl
      | refine ⟨rfl, fun k' x' h => ?_, fun k' x h => ?_⟩
        · simp only [setConn] at h
          split at h
          · cases h; exact .inl rfl
          · exact .inr ⟨x', h, rfl, id, id⟩
        · have : k' ≠ k := by rintro rfl; rw [hk] at h; cases h
          exact ⟨x, by dsimp only; rw [setConn_ne this]; exact h, rfl⟩
  | arrive k bs =>
    simp only [Net.step]
    split
    · rename_i x hx he
      exact ⟨.inl ⟨rfl, fun _ h => (nomatch h)⟩, rfl, one k x _ hx rfl id id⟩
    · exact ⟨.inl ⟨rfl, fun _ h => (nomatch h)⟩, rfl, same _ rfl⟩
  | hangup k er =>
    simp only [Net.step]
    split
    · rename_i x hx he
      exact ⟨.inl ⟨rfl, fun _ h => (nomatch h)⟩, rfl, one k x _ hx rfl id id⟩
    · exact ⟨.inl ⟨rfl, fun _ h => (nomatch h)⟩, rfl, same _ rfl⟩
  | cancel k =>
    simp only [Net.step, Sys.step]
    cases hk : N.sys.conns k with
    | none => exact ⟨.inl ⟨rfl, fun _ h => (nomatch h)⟩, rfl, same _ rfl⟩
    | some x =>
      dsimp only
      split
      · exact ⟨.inl ⟨rfl, fun _ h => (nomatch h)⟩, rfl, one k x _ hk rfl (fun h => by cases h) (fun h => by cases h)⟩
      · exact ⟨.inl ⟨rfl, fun _ h => (nomatch h)⟩, rfl, same _ rfl⟩
  | removeDevice id =>
    simp only [Net.step, Sys.step]
    rcases removeDevice_cases N.sys.shared id with ⟨d, l1, l2, e1, e0, _, e2⟩ | ⟨_, _, e2⟩ | ⟨_, _, e2⟩ <;> rw [e2]
    · exact ⟨.inr (.inl ⟨d, l1, l2, by rw [e0], e1, rfl⟩), rfl, same _ rfl⟩
    · exact ⟨.inl ⟨rfl, fun _ h => (nomatch h)⟩, rfl, same _ rfl⟩
    · exact ⟨.inl ⟨rfl, fun _ h => (nomatch h)⟩, rfl, same _ rfl⟩

/-- An iteration changes something only if it can be made. -/
theorem event_iterate (N : Net σ) (k : Nat) (wr : WriteRes) :
    (N.step env p (.iterate k wr) = N ∧ ∀ c, made env p c N (.iterate k wr) = []) ∨
    ∃ x, N.sys.conns k = some x ∧ x.status = .running ∧ N.ready p k = true ∧
      (N.step env p (.iterate k wr)).sys = ⟨(x.iterate env p N.sys.shared wr).1, setConn N.sys.conns k (x.iterate env p N.sys.shared wr).2⟩ ∧
      (N.step env p (.iterate k wr)).ended = N.ended ∧
      made env p k N (.iterate k wr) = x.made env p N.sys.shared ∧ ∀ c, c ≠ k → made env p c N (.iterate k wr) = [] := by
  by_cases hready : N.ready p k = true
  rotate_left
  · refine .inl ⟨by simp only [Net.step, if_neg hready], fun c => ?_⟩
    simp only [made]
    exact if_neg (fun hn => hready (by rw [hn.1]; exact hn.2))
  cases hx : N.sys.conns k with
  | none => simp [Net.ready, hx] at hready
  | some x =>
    by_cases hr : x.status = .running
    rotate_left
    · refine .inl ⟨by simp only [Net.step, if_pos hready, Sys.step, hx, if_neg hr], fun c => ?_⟩
      simp only [made]
      split
      · rename_i hn; rw [← hn.1, hx]; exact if_neg hr
      · rfl
    refine .inr ⟨x, rfl, hr, hready, by simp only [Net.step, if_pos hready, Sys.step, hx, if_pos hr],
      by simp only [Net.step, if_pos hready], by simp only [made, hready, and_self, if_true, hx, hr], fun c hc => ?_⟩
    simp only [made]
    exact if_neg (fun hn => hc hn.1.symm)

/-! ## The invariant -/

/-- Where the devices of a bus id are. -/
def places (id : Bytes) (s : Shared σ) : Nat := (s.available.map Device.busId ++ s.used.map Prod.fst).count id

/-- What is true of the server, `G` being what it has been given: there is one device at most with the bus id of `dev`, and one
connection at most has it. -/
structure Stock (G : List Device) (dev : Device) (sh : Shared σ) (conns : Nat → Option Conn) : Prop where
  once : places dev.busId sh ≤ (G.filter (fun d => d.busId = dev.busId)).length
  devs : ∀ d ∈ onServer sh, d ∈ G
  keyed : ∀ e ∈ sh.used, e.2.busId = e.1
  held : ∀ c x, conns c = some x → x.status = .running → x.current = some dev.busId → dev.busId ∈ sh.used.map Prod.fst
  own : ∀ c₁ c₂ x₁ x₂, c₁ ≠ c₂ → conns c₁ = some x₁ → conns c₂ = some x₂ →
    x₁.status = .running → x₂.status = .running → x₁.current = some dev.busId → x₂.current = some dev.busId → False

theorem Stock.init (devices : List Device) (w : World σ) : Stock devices dev (Net.init devices w).sys.shared (Net.init devices w).sys.conns := by
  refine ⟨?_, fun d hd => ?_, fun e he => (by cases he), fun c x hx => (by cases hx), fun c1 c2 x1 x2 _ hx => (by cases hx)⟩
  · show ((devices.map Device.busId) ++ []).count dev.busId ≤ _
    rw [List.append_nil, List.count_eq_length_filter, List.filter_map, List.length_map]
    refine Nat.le_of_eq (congrArg List.length (List.filter_congr fun d _ => ?_))
    rw [Bool.eq_iff_iff]
    simp [Function.comp]
  · have : onServer (Net.init devices w).sys.shared = devices ++ [] := rfl
    rw [this, List.append_nil] at hd
    exact hd

/-- A device is at one place. -/
theorem Stock.apart {G : List Device} {sh : Shared σ} {conns : Nat → Option Conn} (h : Stock G dev sh conns) (hG : Single dev G)
    (hu : dev.busId ∈ sh.used.map Prod.fst) : ∀ d ∈ sh.available, d.busId ≠ dev.busId := by
  intro d hd he
  have h1 := h.once
  have h2 := single_length hG
  have h3 : 0 < (sh.available.map Device.busId).count dev.busId := List.count_pos_iff.mpr (List.mem_map.mpr ⟨d, hd, he⟩)
  have h4 : 0 < (sh.used.map Prod.fst).count dev.busId := List.count_pos_iff.mpr hu
  unfold places at h1
  rw [List.count_append] at h1
  omega

/-- ... and there is one of it. -/
theorem Stock.alone {G : List Device} {sh : Shared σ} {conns : Nat → Option Conn} (h : Stock G dev sh conns) (hG : Single dev G)
    {l1 l2 : List Device} {d : Device} (ha : sh.available = l1 ++ d :: l2) (hd : d.busId = dev.busId) :
    ∀ d' ∈ l1 ++ l2, d'.busId ≠ dev.busId := by
  intro d' hd' he
  have h1 := h.once
  have h2 := single_length hG
  have h3 : 0 < ((l1 ++ l2).map Device.busId).count dev.busId := List.count_pos_iff.mpr (List.mem_map.mpr ⟨d', hd', he⟩)
  unfold places at h1
  rw [ha] at h1
  simp only [List.map_append, List.map_cons, List.count_append, List.count_cons, hd, beq_self_eq_true, if_true] at h1 h3
  omega

/-- The device a connection has. -/
theorem Stock.device {G : List Device} {sh : Shared σ} {conns : Nat → Option Conn} (h : Stock G dev sh conns) {id : Bytes} {dv : Device}
    (hg : amGet id sh.used = some dv) : dv ∈ G ∧ dv.busId = id := by
  have hm := amGet_mem hg
  exact ⟨h.devs dv (List.mem_append_right _ (List.mem_map.mpr ⟨_, hm, rfl⟩)), h.keyed _ hm⟩

theorem Stock.avail {G : List Device} {sh : Shared σ} {conns : Nat → Option Conn} (h : Stock G dev sh conns) {d : Device}
    (hd : d ∈ sh.available) : d ∈ G := h.devs d (List.mem_append_left _ hd)

theorem Effect.places {s s' : Shared σ} {cur cur'} (h : Effect s cur s' cur') (hk : ∀ e ∈ s.used, e.2.busId = e.1) (id : Bytes) :
    places id s' ≤ places id s ∧ (∀ e ∈ s'.used, e.2.busId = e.1) ∧ ∀ d ∈ onServer s', d ∈ onServer s := by
  unfold Usbip.places onServer
  have cnt : ∀ (k : Bytes) (m : List (Bytes × Device)), ((amErase k m).map Prod.fst).count id = if id = k then 0 else (m.map Prod.fst).count id := by
    intro k m
    rw [amErase_keys]
    by_cases hid : id = k
    · rw [if_pos hid, List.count_eq_zero]
      simp [hid]
    · rw [if_neg hid, List.count_filter (by simpa using hid)]
  cases h with
  | keep ha hu => rw [ha, hu]; exact ⟨Nat.le_refl _, hk, fun _ h => h⟩
  | refuse ha hu => rw [ha, hu]; exact ⟨Nat.le_refl _, hk, fun _ h => h⟩
  | grant d l1 l2 h ha hu =>
    rw [ha, hu, h]
    refine ⟨?_, fun e he => ?_, fun d' hd' => ?_⟩
    · simp only [amInsert, List.map_append, List.map_cons, List.count_append, List.count_cons, cnt]
      split <;> split <;> simp_all <;> omega
    · rcases List.mem_cons.mp he with rfl | he
      · rfl
      · exact hk e (amErase_mem.mp he).1
    · simp only [amInsert, List.map_cons, List.mem_append, List.mem_cons] at hd' ⊢
      rcases hd' with (h | h) | h | h
      · exact .inl (.inl h)
      · exact .inl (.inr (.inr h))
      · exact .inl (.inr (.inl h))
      · obtain ⟨e, he, rfl⟩ := List.mem_map.mp h
        exact .inr (List.mem_map.mpr ⟨e, (amErase_mem.mp he).1, rfl⟩)
  | release id' d hc hg ha hu =>
    have hmem := amGet_mem hg
    have hid : d.busId = id' := hk _ hmem
    rw [ha, hu]
    refine ⟨?_, fun e he => hk e (amErase_mem.mp he).1, fun d' hd' => ?_⟩
    · simp only [List.map_append, List.map_cons, List.map_nil, List.count_append, List.count_cons, List.count_nil, cnt]
      have hpos : 0 < (s.used.map Prod.fst).count id' := List.count_pos_iff.mpr (List.mem_map.mpr ⟨_, hmem, rfl⟩)
      by_cases he : id = id'
      · subst he; simp only [hid, beq_self_eq_true, if_true]; omega
      · have : (d.busId == id) = false := by simpa [hid] using fun h => he h.symm
        simp only [this, if_neg he]
        simp
    · simp only [List.mem_append, List.mem_singleton] at hd' ⊢
      rcases hd' with (h | h) | h
      · exact .inl h
      · subst h; exact .inr (List.mem_map.mpr ⟨_, hmem, rfl⟩)
      · obtain ⟨e, he, rfl⟩ := List.mem_map.mp h
        exact .inr (List.mem_map.mpr ⟨e, (amErase_mem.mp he).1, rfl⟩)

theorem Stock.iterate {G : List Device} {sh : Shared σ} {conns : Nat → Option Conn} (h : Stock G dev sh conns) (hG : Single dev G)
    (c : Nat) (x : Conn) (hx : conns c = some x) (hrun : x.status = .running) (w : WriteRes) :
    Stock G dev (x.iterate env p sh w).1 (setConn conns c (x.iterate env p sh w).2) := by
  have heff := iterate_Effect env p sh x w
  generalize (x.iterate env p sh w).1 = sh' at *
  generalize (x.iterate env p sh w).2 = x' at *
  obtain ⟨hn, hk, hd⟩ := heff.places h.keyed dev.busId
  have hothers : ∀ c' y, c' ≠ c → conns c' = some y → y.status = .running → y.current = some dev.busId →
      dev.busId ∈ sh'.used.map Prod.fst := by
    intro c' y hne hy hr hc
    exact heff.keys _ (h.held c' y hy hr hc) (fun hxc => h.own c' c y x hne hy hx hr hrun hc hxc)
  have hmine : x'.current = some dev.busId → dev.busId ∈ sh'.used.map Prod.fst ∧
      ∀ c' y, c' ≠ c → conns c' = some y → y.status = .running → y.current ≠ some dev.busId := by
    intro hid
    rcases heff.current _ hid with ⟨h1, h2⟩ | ⟨h1, h2⟩
    · refine ⟨by rw [h2]; exact h.held c x hx hrun h1, ?_⟩
      intro c' y hne hy hr hc
      exact h.own c' c y x hne hy hx hr hrun hc h1
    · refine ⟨h2, ?_⟩
      intro c' y hne hy hr hc
      obtain ⟨d, hd1, hd2⟩ := List.mem_map.mp h1
      exact h.apart hG (h.held c' y hy hr hc) d hd1 hd2
  refine ⟨Nat.le_trans hn h.once, fun d h' => h.devs d (hd d h'), hk, ?_, ?_⟩
  · intro c' y hy hr hc
    simp only [setConn] at hy
    split at hy
    · simp only [Option.some.injEq] at hy
      subst hy
      exact (hmine hc).1
    · rename_i hne
      exact hothers c' y hne hy hr hc
  · intro c₁ c₂ x₁ x₂ hne h1 h2 r1 r2 e1 e2
    simp only [setConn] at h1 h2
    split at h1
    · rename_i hc1
      simp only [Option.some.injEq] at h1
      subst h1
      rw [if_neg (by rintro rfl; exact hne hc1)] at h2
      exact (hmine e1).2 c₂ x₂ (by rintro rfl; exact hne hc1) h2 r2 e2
    · rename_i hc1
      split at h2
      · simp only [Option.some.injEq] at h2
        subst h2
        exact (hmine e2).2 c₁ x₁ hc1 h1 r1 e1
      · exact h.own c₁ c₂ x₁ x₂ hne h1 h2 r1 r2 e1 e2

/-- One event. -/
theorem Stock.event {G : List Device} {N : Net σ} (h : Stock G dev N.sys.shared N.sys.conns) (ev : NetEvent σ) (hG : Single dev (gave G ev)) :
    Stock (gave G ev) dev (N.step env p ev).sys.shared (N.step env p ev).sys.conns := by
  by_cases hit : ∃ k wr, ev = .iterate k wr
  · obtain ⟨k, wr, rfl⟩ := hit
    rcases event_iterate (env := env) (p := p) N k wr with ⟨e1, _⟩ | ⟨x, hx, hr, _, hN, _⟩
    · rw [e1]; exact h
    · rw [hN]; exact h.iterate hG k x hx hr wr
  · have hit' : ∀ k wr, ev ≠ .iterate k wr := fun k wr he => hit ⟨k, wr, he⟩
    obtain ⟨h1, h2, h3, _⟩ := event_else (env := env) (p := p) N ev hit'
    obtain ⟨i1, i0, i2, i3, i4⟩ := h
    refine ⟨?_, fun d hd => ?_, by rw [h2]; exact i2, fun c x hx hr hc => ?_, fun c1 c2 x1 x2 hne hx1 hx2 hr1 hr2 hc1 hc2 => ?_⟩
    · unfold places at i1 ⊢
      rw [h2]
      rcases h1 with ⟨h1, h0⟩ | ⟨d, l1, l2, rfl, e1, e2⟩ | ⟨d, rfl, e1⟩
      · rw [h1, gave_else h0]; exact i1
      · rw [e1] at i1
        rw [e2]
        refine Nat.le_trans ?_ i1
        simp only [List.map_append, List.map_cons, List.count_append, List.count_cons]
        omega
      · rw [e1]
        simp only [gave, List.map_append, List.map_cons, List.map_nil, List.count_append, List.count_cons, List.count_nil,
          List.filter_append, List.length_append] at i1 ⊢
        by_cases hd : d.busId = dev.busId
        · have : ([d].filter (fun d => d.busId = dev.busId)).length = 1 := by simp [hd]
          simp only [this, hd, beq_self_eq_true, if_true]
          omega
        · have : (d.busId == dev.busId) = false := by simpa using hd
          simp only [this, Bool.false_eq_true, if_false]
          omega
    · have hp := (gave_prefix G ev).subset
      rcases List.mem_append.mp hd with hd | hd
      · rcases h1 with ⟨h1, _⟩ | ⟨d1, l1, l2, _, e1, e2⟩ | ⟨d1, rfl, e1⟩
        · rw [h1] at hd; exact hp (i0 d (List.mem_append_left _ hd))
        · refine hp (i0 d (List.mem_append_left _ ?_))
          rw [e2] at hd
          rw [e1]
          simp only [List.mem_append, List.mem_cons] at hd ⊢
          rcases hd with hd | hd
          · exact .inl hd
          · exact .inr (.inr hd)
        · rw [e1] at hd
          rcases List.mem_append.mp hd with hd | hd
          · exact hp (i0 d (List.mem_append_left _ hd))
          · exact List.mem_append_right _ hd
      · rw [h2] at hd; exact hp (i0 d (List.mem_append_right _ hd))
    · rw [h2]
      rcases h3 c x hx with hn | ⟨y, hy, hyc, hys, _⟩
      · rw [hn] at hc; cases hc
      · exact i3 c y hy (hys hr) (hyc.trans hc)
    · rcases h3 c1 x1 hx1 with hn | ⟨y1, hy1, hyc1, hys1, _⟩
      · rw [hn] at hc1; cases hc1
      rcases h3 c2 x2 hx2 with hn | ⟨y2, hy2, hyc2, hys2, _⟩
      · rw [hn] at hc2; cases hc2
      exact i4 c1 c2 y1 y2 hne hy1 hy2 (hys1 hr1) (hys2 hr2) (hyc1.trans hc1) (hyc2.trans hc2)

end

end Usbip
