import Verif.Lemmas.Life3
import Verif.Props.Driver
/-! Helper lemmas: an object into which things are put, and from which a host reads them. -/

namespace Usbip
open Spec

/-- Things are put into an object by the application, and taken out of it by transfers through good endpoints. -/
structure Feeds {α β γ : Type} (obj : Endpoint → SetupPacket → β → HRes × β) (act : α → β → β) (rest : β → List γ)
    (item : α → List γ) (chunk : Bytes → List γ) (good : Endpoint → Bool) : Prop where
  put : ∀ a b, rest (act a b) = rest b ++ item a
  poll : ∀ ep st b, good ep = true → ∃ bytes, (obj ep st b).1 = .ok bytes ∧ chunk bytes ++ rest (obj ep st b).2 = rest b ∧
    (rest b ≠ [] → chunk bytes ≠ [])
  other : ∀ ep st b, good ep = false → rest (obj ep st b).2 = rest b

section
variable {α β γ : Type} {obj : Endpoint → SetupPacket → β → HRes × β} {act : α → β → β} {rest : β → List γ}
  {item : α → List γ} {chunk : Bytes → List γ} {good : Endpoint → Bool}

/-- The object, with endpoint and setup packet together. -/
def plain (obj : Endpoint → SetupPacket → β → HRes × β) (k : Endpoint × SetupPacket) : β → HRes × β := obj k.1 k.2

/-- The replies of the object. -/
def repliesOf (obj : Endpoint → SetupPacket → β → HRes × β) (act : α → β → β) (b : β) (ops : List (Deed α (Endpoint × SetupPacket))) :
    List (Endpoint × Nat × Bytes) := (objAnswers (plain obj) Prod.fst act b ops).filterMap replied

/-- What is taken out with some replies. -/
def takenOut (chunk : Bytes → List γ) (good : Endpoint → Bool) (l : List (Endpoint × Nat × Bytes)) : List γ :=
  (l.filter (fun r => good r.1)).flatMap (fun r => chunk r.2.2)

/-- The number of good transfers. -/
def goodOps (good : Endpoint → Bool) (ops : List (Deed α (Endpoint × SetupPacket))) : Nat :=
  ops.countP (fun | .urb k => good k.1 | .app _ => false)

theorem takenOut_append (l m : List (Endpoint × Nat × Bytes)) :
    takenOut chunk good (l ++ m) = takenOut chunk good l ++ takenOut chunk good m := by
  simp [takenOut]

theorem takenOut_prefix {l m : List (Endpoint × Nat × Bytes)} (h : l <+: m) : takenOut chunk good l <+: takenOut chunk good m := by
  obtain ⟨t, rfl⟩ := h
  rw [takenOut_append]
  exact List.prefix_append _ _

theorem repliesOf_append (b : β) (l m : List (Deed α (Endpoint × SetupPacket))) :
    repliesOf obj act b (l ++ m) = repliesOf obj act b l ++ repliesOf obj act (objNext (plain obj) act b l) m := by
  simp [repliesOf, objAnswers_append]

theorem repliesOf_urb (b : β) (ep : Endpoint) (st : SetupPacket) (ops : List (Deed α (Endpoint × SetupPacket))) : repliesOf obj act b (.urb (ep, st) :: ops) =
    (replied (ep, (obj ep st b).1)).toList ++ repliesOf obj act (obj ep st b).2 ops := by
  simp only [repliesOf, objAnswers, List.filterMap_cons, plain]
  cases replied (ep, (obj ep st b).1) <;> rfl

theorem repliesOf_app (b : β) (a : α) (ops : List (Deed α (Endpoint × SetupPacket))) :
    repliesOf obj act b (.app a :: ops) = repliesOf obj act (act a b) ops := rfl

theorem Feeds.one (hF : Feeds obj act rest item chunk good) (ep : Endpoint) (st : SetupPacket) (b : β) :
    takenOut chunk good (replied (ep, (obj ep st b).1)).toList ++ rest (obj ep st b).2 = rest b ∧
    (good ep = true → rest b ≠ [] → takenOut chunk good (replied (ep, (obj ep st b).1)).toList ≠ []) ∧
    ((replied (ep, (obj ep st b).1)).toList.countP (fun r => good r.1) = if good ep then 1 else 0) := by
  cases hg : good ep with
  | true =>
    obtain ⟨bytes, h1, h2, h3⟩ := hF.poll ep st b hg
    rw [h1]
    simp only [replied, Option.toList, takenOut, List.filter_cons, hg, if_true, List.filter_nil, List.flatMap_cons, List.flatMap_nil,
      List.append_nil]
    exact ⟨h2, fun _ => h3, by simp [hg]⟩
  | false =>
    have h1 := hF.other ep st b hg
    refine ⟨?_, fun h => (by cases h), ?_⟩
    · have : takenOut chunk good (replied (ep, (obj ep st b).1)).toList = [] := by
        cases (obj ep st b).1 <;> simp [replied, takenOut, hg]
      rw [this, h1]; rfl
    · cases (obj ep st b).1 <;> simp [replied, hg]

/-- What was taken out, and what is still in it, is what was in it and what was put into it. -/
theorem Feeds.run (hF : Feeds obj act rest item chunk good) (ops : List (Deed α (Endpoint × SetupPacket))) : ∀ b,
    takenOut chunk good (repliesOf obj act b ops) ++ rest (objNext (plain obj) act b ops) = rest b ++ (appsOf ops).flatMap item := by
  induction ops with
  | nil => intro b; simp [repliesOf, objAnswers, takenOut, objNext, appsOf]
  | cons op ops ih =>
    intro b
    cases op with
    | app a =>
      have := ih (act a b)
      rw [hF.put, List.append_assoc] at this
      exact this
    | urb k =>
      obtain ⟨ep, st⟩ := k
      rw [repliesOf_urb, takenOut_append, List.append_assoc]
      have h1 := ih (obj ep st b).2
      have h2 : objNext (plain obj) act b (.urb (ep, st) :: ops) = objNext (plain obj) act (obj ep st b).2 ops := rfl
      have h3 : appsOf (.urb (ep, st) :: ops) = appsOf ops := rfl
      rw [h2, h3, h1, ← List.append_assoc, (hF.one ep st b).1]

/-- Every good transfer takes something out, if there is something. -/
theorem Feeds.count (hF : Feeds obj act rest item chunk good) (ops : List (Deed α (Endpoint × SetupPacket))) : ∀ b,
    min (goodOps good ops) (rest b).length ≤ (takenOut chunk good (repliesOf obj act b ops)).length := by
  induction ops with
  | nil => intro b; simp [goodOps]
  | cons op ops ih =>
    intro b
    cases op with
    | app a =>
      have h1 := ih (act a b)
      rw [hF.put, List.length_append] at h1
      have h2 : goodOps good (.app a :: ops) = goodOps good ops := by simp [goodOps]
      rw [h2, repliesOf_app]
      omega
    | urb k =>
      obtain ⟨ep, st⟩ := k
      have h1 := ih (obj ep st b).2
      obtain ⟨g1, g2, _⟩ := hF.one ep st b
      rw [repliesOf_urb, takenOut_append, List.length_append]
      have g3 := congrArg List.length g1
      rw [List.length_append] at g3
      cases hg : good ep with
      | false =>
        have h2 : goodOps good (.urb (ep, st) :: ops) = goodOps good ops := by simp [goodOps, hg]
        rw [h2]
        omega
      | true =>
        have h2 : goodOps good (.urb (ep, st) :: ops) = goodOps good ops + 1 := by simp [goodOps, hg]
        rw [h2]
        by_cases h3 : rest b = []
        · rw [h3]; simp
        · have h4 := List.length_pos_iff.mpr (g2 hg h3)
          omega

theorem Feeds.replies (hF : Feeds obj act rest item chunk good) (ops : List (Deed α (Endpoint × SetupPacket))) : ∀ b,
    (repliesOf obj act b ops).countP (fun r => good r.1) = goodOps good ops := by
  induction ops with
  | nil => intro b; rfl
  | cons op ops ih =>
    intro b
    cases op with
    | app a =>
      rw [repliesOf_app, ih]
      simp [goodOps]
    | urb k =>
      obtain ⟨ep, st⟩ := k
      rw [repliesOf_urb, List.countP_append, ih, (hF.one ep st b).2.2]
      cases hg : good ep <;> simp [goodOps, hg, Nat.add_comm]

/-- A beginning of the replies is the replies to a beginning. -/
theorem replies_prefix (ops : List (Deed α (Endpoint × SetupPacket))) : ∀ (b : β) (l : List (Endpoint × Nat × Bytes)), l <+: repliesOf obj act b ops →
    ∃ ops', ops' <+: ops ∧ repliesOf obj act b ops' = l := by
  induction ops with
  | nil => intro b l h; exact ⟨[], List.prefix_refl _, (List.prefix_nil.mp h).symm⟩
  | cons op ops ih =>
    intro b l h
    cases op with
    | app a =>
      obtain ⟨ops', h1, h2⟩ := ih _ _ h
      exact ⟨.app a :: ops', List.cons_prefix_cons.mpr ⟨rfl, h1⟩, h2⟩
    | urb k =>
      obtain ⟨ep, st⟩ := k
      rw [repliesOf_urb] at h
      cases hr : replied (ep, (obj ep st b).1) with
      | none =>
        rw [hr] at h
        obtain ⟨ops', h1, h2⟩ := ih _ _ h
        refine ⟨.urb (ep, st) :: ops', List.cons_prefix_cons.mpr ⟨rfl, h1⟩, ?_⟩
        rw [repliesOf_urb, hr, h2]; rfl
      | some r =>
        rw [hr] at h
        cases l with
        | nil => exact ⟨[], List.nil_prefix, rfl⟩
        | cons r' l =>
          obtain ⟨rfl, h'⟩ := List.cons_prefix_cons.mp h
          obtain ⟨ops', h1, h2⟩ := ih _ _ h'
          refine ⟨.urb (ep, st) :: ops', List.cons_prefix_cons.mpr ⟨rfl, h1⟩, ?_⟩
          rw [repliesOf_urb, hr, h2]; rfl

/-- With enough replies, everything that was there at some time has been taken out. -/
theorem Feeds.enough (hF : Feeds obj act rest item chunk good) {b : β} {ops0 ops : List (Deed α (Endpoint × SetupPacket))} (h0 : ops0 <+: ops)
    {l : List (Endpoint × Nat × Bytes)} (hl : l <+: repliesOf obj act b ops)
    (hn : goodOps good ops0 + (rest b ++ (appsOf ops0).flatMap item).length < l.countP (fun r => good r.1)) :
    rest b ++ (appsOf ops0).flatMap item <+: takenOut chunk good l := by
  obtain ⟨ops', h1, rfl⟩ := replies_prefix ops b l hl
  rw [hF.replies] at hn
  rcases List.prefix_or_prefix_of_prefix h0 h1 with h2 | h2
  rotate_left
  · obtain ⟨t, rfl⟩ := h2
    simp only [goodOps, List.countP_append] at hn
    omega
  obtain ⟨t, rfl⟩ := h2
  have hr := hF.run (ops0 ++ t) b
  have hr0 := hF.run ops0 b
  rw [appsOf_append, List.flatMap_append, ← List.append_assoc] at hr
  refine List.prefix_of_prefix_length_le (List.prefix_append _ _) (l₃ := rest b ++ (appsOf ops0).flatMap item ++ (appsOf t).flatMap item) ?_ ?_
  · rw [← hr]; exact List.prefix_append _ _
  · rw [repliesOf_append, takenOut_append, List.length_append (as := takenOut _ _ _)]
    have h3 := hF.count t (objNext (plain obj) act b ops0)
    have h4 := congrArg List.length hr0
    rw [List.length_append] at h4
    simp only [goodOps, List.countP_append] at hn h3
    omega

end

/-! ## The host's view -/

/-- What a host has taken out. -/
def readBack {γ : Type} (chunk : Bytes → List γ) (good : Endpoint → Bool) (dev : Device) (h : Nat) (d : Driver) : List γ :=
  ((givenBack dev h d).filter (fun r => good r.1)).flatMap (fun r => chunk r.2)

section
variable {τ α β γ : Type} {code : Code τ} {env : Env (HandlerId → τ)} {p : Profile} {h : Nat} {view : τ → β}
  {obj : Endpoint → SetupPacket → β → HRes × β} {act : α → β → β} {devices : List Device} {dev : Device}
  {w : World (HandlerId → τ)}
  {e : MachineExec code env p (Machine.init code devices w)} {c : Nat} {busid : Bytes} {devid : UInt32} {d : Nat → Driver}
  {acts : Nat → List α} {rest : β → List γ} {item : α → List γ} {chunk : Bytes → List γ} {good : Endpoint → Bool}

theorem then_le {κ : Type} {q : Nat → Phases α κ} (hq : ∀ n, (q n).Then (q (n + 1))) {n m : Nat} (h : n ≤ m) : (q n).Then (q m) := by
  induction m with
  | zero => obtain rfl : n = 0 := by omega
            exact .refl _
  | succ m ih =>
    by_cases e : n = m + 1
    · subst e; exact .refl _
    · exact (ih (by omega)).trans (hq m)

theorem actsBy_mono {acts : Nat → List α} {n m : Nat} (h : n ≤ m) : actsBy acts n <+: actsBy acts m := by
  induction m with
  | zero => obtain rfl : n = 0 := by omega
            exact List.prefix_refl _
  | succ m ih =>
    by_cases e : n = m + 1
    · subst e; exact List.prefix_refl _
    · exact (ih (by omega)).trans (List.prefix_append _ _)

/-- The transfers of some kind that have been given back to the host: which, and the data. -/
def givenBy {ι : Type} (r : Cmd → Option ι) (d : Driver) : List (ι × Bytes) :=
  d.done.filterMap (fun g => (r (g.urb.cmd d.devid g.seq)).map (fun k => (k, g.data)))

/-- ... and those that were asked for. -/
def askedBy {ι : Type} (r : Cmd → Option ι) (d : Driver) : List ι :=
  d.issued.filterMap (fun g => r (g.2.cmd d.devid g.1))

/-- The host's transfers, in the server's log. -/
theorem givenBy_log {ι : Type} (r : Cmd → Option ι) (ha : Alongside e c busid devid d) {log : Nat → List Handled}
    (hx : Exchanged e c d log) (n : Nat) (hm : ∀ e ∈ log n, Modest e.2.1) (hp : (d n).phase ≠ .broken) :
    ∃ gb, gb <+: (log n).filterMap (loggedFor r) ∧ givenBy r (d n) = gb.map (fun r => (r.1, r.2.2)) := by
  obtain ⟨_, _, h3, _⟩ := C92_safe code env p devices w e c busid devid d ha log hx n hm
  obtain ⟨_, h4⟩ := h3 hp
  obtain ⟨_, hdev⟩ := host_ids ha n
  obtain ⟨t, ht⟩ := h4
  refine ⟨((d n).done.map (fun g => (g.urb.cmd devid g.seq, g.status, g.data))).filterMap
    (fun x => (r x.1).map (fun k => (k, x.2))), ⟨t.filterMap (fun x => (r x.1).map (fun k => (k, x.2))), ?_⟩, ?_⟩
  · rw [← List.filterMap_append, ht, List.filterMap_filterMap]
    rfl
  · unfold givenBy
    rw [hdev, List.filterMap_map, List.map_filterMap]
    congr 1
    funext g
    dsimp only [Function.comp]
    cases r (g.urb.cmd devid g.seq) <;> rfl

theorem givenBack_log (ha : Alongside e c busid devid d) {log : Nat → List Handled} (hx : Exchanged e c d log) (n : Nat)
    (hm : ∀ e ∈ log n, Modest e.2.1) (hp : (d n).phase ≠ .broken) :
    ∃ gb, gb <+: (log n).filterMap (loggedFor (reached dev h)) ∧ givenBack dev h (d n) = gb.map (fun r => (r.1, r.2.2)) :=
  givenBy_log (reached dev h) ha hx n hm hp

theorem readBack_taken {gb : List (Endpoint × Nat × Bytes)} {x : Driver}
    (h1 : givenBack dev h x = gb.map (fun r => (r.1, r.2.2))) : readBack chunk good dev h x = takenOut chunk good gb := by
  unfold readBack takenOut
  rw [h1, List.filter_map, List.flatMap_map]
  rfl

end

end Usbip
