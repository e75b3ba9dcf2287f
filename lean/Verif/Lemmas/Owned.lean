import Verif.Lemmas.Attended
import Verif.Lemmas.Found
/-! Helper lemmas: what the object behind a device has said, and that all of it was said in states it can be in. -/

namespace Usbip
open Spec

section
variable {α β κ ι : Type} {obj : κ → β → HRes × β} {tag : κ → ι} {act : α → β → β} {I : β → Prop}

theorem objNext_inv (hobj : ∀ k b, I b → I (obj k b).2) (hact : ∀ a b, I b → I (act a b)) (ops : List (Deed α κ)) :
    ∀ b, I b → I (objNext obj act b ops) := by
  induction ops with
  | nil => intro b hb; exact hb
  | cons op ops ih =>
    intro b hb
    cases op with
    | app a => exact ih _ (hact a b hb)
    | urb k => exact ih _ (hobj k b hb)

theorem answers_inv (hobj : ∀ k b, I b → I (obj k b).2) (hact : ∀ a b, I b → I (act a b)) (ops : List (Deed α κ)) :
    ∀ b, I b → ∀ x ∈ objAnswers obj tag act b ops, ∃ k b', I b' ∧ x = (tag k, (obj k b').1) := by
  induction ops with
  | nil => intro b _ x hx; cases hx
  | cons op ops ih =>
    intro b hb x hx
    cases op with
    | app a => exact ih _ (hact a b hb) x hx
    | urb k =>
      rcases List.mem_cons.mp hx with rfl | hx
      · exact ⟨k, b, hb, rfl⟩
      · exact ih _ (hobj k b hb) x hx

end

theorem replied_fst {ι : Type} {k : ι} {r : HRes} {x : ι × Nat × Bytes} (h : replied (k, r) = some x) : x.1 = k := by
  cases r <;> cases h <;> rfl

section
variable {τ α β : Type} {code : Code τ} {env : Env (HandlerId → τ)} {p : Profile} {h : Nat} {view : τ → β}
  {obj : Endpoint → SetupPacket → β → HRes × β} {act : α → β → β} {devices : List Device} {dev : Device}
  {w : World (HandlerId → τ)}
  {e : MachineExec code env p (Machine.init code devices w)} {c : Nat} {busid : Bytes} {devid : UInt32} {d : Nat → Driver}
  {acts : Nat → List α} {I : β → Prop}

/-- What was answered to the client by the object was answered in a state that the object can be in. -/
theorem told_spoken (hb : Behaves code env) (ha : Alongside e c busid devid d) (hS : Serves code env h view obj)
    (hU : Uses e (code.obj (.iface h)) view act acts) (hD : Sole e devices dev h busid)
    (hI : I (view (w.user (code.obj (.iface h))))) (hobj : ∀ ep st b, I b → I (obj ep st b).2)
    (hact : ∀ a b, I b → I (act a b))
    (f : Nat → List (MachineLabel (HandlerId → τ)) × List (Bytes × Handled))
    (hf : ∀ n, Told e c n (f n).1 (f n).2 ∧ (f n).2 <+: (f (n + 1)).2) (hf0 : (f 0).1 = [])
    (hf1 : ∀ n, (f (n + 1)).1 = (f n).1 ++ (e.label n).toList) (n : Nat) :
    ∀ g ∈ (f n).2.map (·.2), ∀ x, loggedFor (reachedBy dev (ofIface h) id) g = some x →
      ∃ b, I b ∧ replied (x.1, (obj x.1.1 x.1.2 b).1) = some x := by
  obtain ⟨q, hq⟩ := exists_life (tag := id) hb ha hS.works hU hD.named
    (fun n d hd call k hk ht => hD.only n d hd (by rw [← ofIface_target hk]; exact ht)) hD.single f hf hf0 hf1
  intro g hg x hx
  obtain ⟨g', hg', rfl⟩ := List.mem_map.mp hg
  cases hs : (q n).started with
  | false =>
    have := ((hq n).1.idle hs).2.2.1 g' hg'
    rw [loggedFor, this.2] at hx
    cases hx
  | true =>
    obtain ⟨_, e0, rest, dv, h1, h2, ⟨last, _, h3⟩, _⟩ := (hq n).1.busy hs
    have hr : g' ∈ rest := by
      rw [h1] at hg'
      rcases List.mem_cons.mp hg' with rfl | h
      · obtain ⟨a, cm, rp, by'⟩ := g'
        dsimp only at h2 hx
        subst h2
        cases cm <;> cases hx
      · exact h
    have hmem : x ∈ (objAnswers (plain obj) id act (objNext (plain obj) act (view (w.user (code.obj (.iface h)))) (q n).pre)
        (q n).mid).filterMap replied := by
      rw [h3]
      exact List.mem_append_left _ (List.mem_filterMap.mpr ⟨g', hr, hx⟩)
    obtain ⟨y, hy, hxy⟩ := List.mem_filterMap.mp hmem
    obtain ⟨k, b, hb', rfl⟩ := answers_inv (obj := plain obj) (tag := id) (act := act) (I := I) (fun k b => hobj k.1 k.2 b) hact
      (q n).mid _ (objNext_inv (obj := plain obj) (fun k b => hobj k.1 k.2 b) hact (q n).pre _ hI) y hy
    have hk : x.1 = k := by
      exact replied_fst hxy
    refine ⟨b, hb', ?_⟩
    rw [hk]
    exact hxy

/-- Requests are those that were issued. -/
theorem said_issued (ha : Alongside e c busid devid d) (n : Nat) {hd : Header} {fl len sf np iv : UInt32} {setup data iso : Bytes}
    (hs : Cmd.submit hd fl len sf np iv setup data iso ∈ (d n).said) :
    ∃ q ∈ (d n).issued, q.2.cmd (d n).devid q.1 = .submit hd fl len sf np iv setup data iso := by
  have := said_wanted (fun cmd => match cmd with | .submit .. => some cmd | _ => none) (fun _ _ => rfl) (fun _ _ => rfl) ha n
  have hm : Cmd.submit hd fl len sf np iv setup data iso ∈
      (d n).said.filterMap (fun cmd => match cmd with | .submit .. => some cmd | _ => none) :=
    List.mem_filterMap.mpr ⟨_, hs, rfl⟩
  rw [this, askedBy] at hm
  obtain ⟨q, hq, he⟩ := List.mem_filterMap.mp hm
  refine ⟨q, hq, ?_⟩
  rw [Urb.cmd] at he ⊢
  exact Option.some.inj he

end

end Usbip
