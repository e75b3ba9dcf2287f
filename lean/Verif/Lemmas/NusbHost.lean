import Verif.Spec.NusbHost
import Verif.Lemmas.Physical
import Verif.Lemmas.Lost
import Verif.Props.Nusb
/-! Helper lemmas: a device that is shared through nusb, and a host that uses it. -/

namespace Usbip
open Spec

/-! ## Step by step -/

theorem nusbCall_spec {τ} (lib : HandlerId → NusbLib τ) (c : HCall) (t : τ) :
    (∃ r t', nusbCall lib c t = (.done r, t') ∧ nusbAnswer lib c t = (r, t')) ∨
    ∃ n r t', nusbCall lib c t = (.read n r, t') ∧ nusbAnswer lib c t = (sliceResult n r, t') := by
  cases c with
  | iface h i e l s d =>
    simp only [nusbCall, nusbAnswer, ifaceNusb, nusbIface]
    cases nusbControl s with
    | none => exact .inl ⟨_, _, rfl, rfl⟩
    | some c =>
      dsimp only
      split
      · cases e.direction with
        | «in» => exact Or.inr ⟨_, _, _, rfl, rfl⟩
        | out => exact Or.inl ⟨_, _, rfl, rfl⟩
      · split
        · exact Or.inl ⟨_, _, rfl, rfl⟩
        · split
          · exact Or.inl ⟨_, _, rfl, rfl⟩
          · exact Or.inl ⟨_, _, rfl, rfl⟩
  | dev h l s d =>
    simp only [nusbCall, nusbAnswer, devNusb, nusbDev]
    cases nusbControl s with
    | none => exact .inl ⟨_, _, rfl, rfl⟩
    | some c =>
      dsimp only
      split
      · exact Or.inl ⟨_, _, rfl, rfl⟩
      · exact Or.inr ⟨_, _, _, rfl, rfl⟩

section
variable {σ τ : Type} {via : HandlerId → Option HandlerId} {lib : HandlerId → HandlerId → NusbLib τ} {code : Code σ}

/-- The points a nusb handler gets to. -/
theorem nusbCode_at {c : HCall} {o : HandlerId} {s : σ × τ} {l : (nusbCode via lib code).Local} {v : σ × τ}
    (h : Goes (nusbCode via lib code) (.inl (o, .start c)) s l v) :
    (l = .inl (o, .start c) ∧ v = s) ∨
    (l = .inl (o, .locked c) ∧ v = s) ∨
    (∃ n r, l = .inl (o, .read n r) ∧ v.1 = s.1 ∧ nusbAnswer (lib o) c s.2 = (sliceResult n r, v.2)) ∨
    (∃ r, l = .inl (o, .done r) ∧ v.1 = s.1 ∧ nusbAnswer (lib o) c s.2 = (r, v.2)) := by
  induction h with
  | refl => exact Or.inl ⟨rfl, rfl⟩
  | tail h hr ih =>
    rename_i l' v'
    rcases ih with ⟨rfl, rfl⟩ | ⟨rfl, rfl⟩ | ⟨n, r, rfl, h1, h2⟩ | ⟨r, rfl, _, _⟩
    · exact Or.inr (Or.inl ⟨rfl, rfl⟩)
    · rcases nusbCall_spec (lib o) c v'.2 with ⟨r, t', e1, e2⟩ | ⟨n, r, t', e1, e2⟩
      · have e : (nusbCode via lib code).step (.inl (o, .locked c)) v' = (.inl (o, .done r), (v'.1, t')) := by
          simp [nusbCode, nusbStep, e1]
        rw [e]
        exact Or.inr (Or.inr (Or.inr ⟨_, rfl, rfl, e2⟩))
      · have e : (nusbCode via lib code).step (.inl (o, .locked c)) v' = (.inl (o, .read n r), (v'.1, t')) := by
          simp [nusbCode, nusbStep, e1]
        rw [e]
        exact Or.inr (Or.inr (Or.inl ⟨n, r, rfl, rfl, e2⟩))
    · exact Or.inr (Or.inr (Or.inr ⟨_, rfl, h1, h2⟩))
    · simp [nusbCode] at hr

/-- The other handlers run as they would alone. -/
theorem nusbCode_other {l₀ : code.Local} {s : σ × τ} {l : (nusbCode via lib code).Local} {v : σ × τ}
    (h : Goes (nusbCode via lib code) (.inr l₀) s l v) :
    ∃ l', l = .inr l' ∧ Goes code l₀ s.1 l' v.1 ∧ v.2 = s.2 := by
  induction h with
  | refl => exact ⟨_, rfl, .refl _ _, rfl⟩
  | tail h hr ih =>
    obtain ⟨l', rfl, hg, h2⟩ := ih
    exact ⟨_, rfl, .tail hg hr, h2⟩

/-- Run without interruption, the steps of src/host.rs do what `nusbEnv` says. -/
theorem nusb_behaves (via : HandlerId → Option HandlerId) (lib : HandlerId → HandlerId → NusbLib τ) (code : Code σ)
    (env : Env (HandlerId → σ)) (hb : Behaves code env) :
    Behaves (nusbCode via lib code) (nusbEnv via lib env) := by
  intro c u l v r hg hr
  have hans : c.answer (nusbEnv via lib env) u = viaAnswer via lib env c u := by cases c <;> rfl
  rw [hans]
  unfold viaAnswer
  cases hh : via c.target with
  | some o =>
    have hobj : (nusbCode via lib code).obj c.target = o := by simp [nusbCode, hh]
    have hst : (nusbCode via lib code).start c = .inl (o, .start c) := by simp [nusbCode, hh]
    rw [hst, hobj] at hg
    rcases nusbCode_at hg with ⟨rfl, rfl⟩ | ⟨rfl, _⟩ | ⟨n, r', rfl, _⟩ | ⟨r', rfl, h1, h2⟩
    · simp [nusbCode] at hr
    · simp [nusbCode] at hr
    · simp [nusbCode] at hr
    · simp only [nusbCode, Option.some.injEq] at hr
      subst hr
      dsimp only
      rw [hobj, h2, ← h1]
  | none =>
    have hobj : (nusbCode via lib code).obj c.target = code.obj c.target := by simp [nusbCode, hh]
    have hst : (nusbCode via lib code).start c = .inr (code.start c) := by simp [nusbCode, hh]
    rw [hst, hobj] at hg
    obtain ⟨l', rfl, h1, h2⟩ := nusbCode_other hg
    have := hb c (fun o => (u o).1) l' v.1 r h1 hr
    rw [hobj]
    dsimp only
    rw [this]
    refine Prod.ext rfl (funext fun o => ?_)
    by_cases e : o = code.obj c.target
    · subst e; simp [upd, ← h2]
    · simp [upd, e]

/-- ... and they always return. -/
theorem nusb_returns (via : HandlerId → Option HandlerId) (lib : HandlerId → HandlerId → NusbLib τ) (code : Code σ)
    (hret : Returns code) : Returns (nusbCode via lib code) := by
  intro c s
  cases hh : via c.target with
  | some o =>
    have hst : (nusbCode via lib code).start c = .inl (o, .start c) := by simp [nusbCode, hh]
    rw [hst]
    have g0 : Goes (nusbCode via lib code) (.inl (o, .start c)) s (.inl (o, .start c)) s := .refl _ _
    have g1 := Goes.tail g0 rfl
    have e1 : (nusbCode via lib code).step (.inl (o, .start c)) s = (.inl (o, .locked c), s) := rfl
    rw [e1] at g1
    have g2 := Goes.tail g1 rfl
    rcases nusbCall_spec (lib o) c s.2 with ⟨r, t', e, _⟩ | ⟨n, r, t', e, _⟩
    · refine ⟨_, _, g2, r, ?_⟩
      simp [nusbCode, nusbStep, e]
    · have e2 : (nusbCode via lib code).step (.inl (o, .locked c)) s = (.inl (o, .read n r), (s.1, t')) := by
        simp [nusbCode, nusbStep, e]
      rw [e2] at g2
      exact ⟨_, _, .tail g2 rfl, sliceResult n r, rfl⟩
  | none =>
    have hst : (nusbCode via lib code).start c = .inr (code.start c) := by simp [nusbCode, hh]
    rw [hst]
    obtain ⟨l, v, hg, r, hr⟩ := hret c s.1
    have : ∀ l v, Goes code (code.start c) s.1 l v →
        Goes (nusbCode via lib code) (.inr (code.start c)) s (.inr l) (v, s.2) := by
      intro l v hg
      induction hg with
      | refl => exact .refl _ _
      | tail h hr ih => exact .tail ih hr
    exact ⟨_, _, this l v hg, r, hr⟩

end

/-! ## The device as an object -/

section
variable {τ : Type} (host : NusbHost τ)

/-- A device, as an object that takes nusb calls, and requests with which it crashes. -/
def nusbObj : NusbCall ⊕ HandlerId → (τ × List NusbCall) → HRes × (τ × List NusbCall)
  | .inl c, s => (.ok (readBytes (c.answer host s.1)), (c.after host s.1, s.2 ++ [c]))
  | .inr _, s => (.panic, s)

def noDeed {γ : Type} (a : Empty) (s : γ) : γ := nomatch a, s

/-- What happens to a device. -/
theorem nusb_run (ops : List (Deed Empty (NusbCall ⊕ HandlerId))) : ∀ s : τ × List NusbCall,
    ∃ cs, (objNext (nusbObj host) noDeed s ops).2 = s.2 ++ cs ∧
      (objNext (nusbObj host) noDeed s ops).1 = cs.foldl (fun t c => c.after host t) s.1 ∧
      (objAnswers (nusbObj host) id noDeed s ops).filterMap replied = (nusbAnswers host s.1 cs).map (fun x => (.inl x.1, x.2)) ∧
      cs = (objAnswers (nusbObj host) id noDeed s ops).filterMap (fun a => a.1.getLeft?) := by
  induction ops with
  | nil => intro s; exact ⟨[], by simp [objNext], rfl, rfl, rfl⟩
  | cons op ops ih =>
    intro s
    cases op with
    | app a => exact nomatch a
    | urb k =>
      cases k with
      | inl c =>
        obtain ⟨cs, h1, h2, h3, h4⟩ := ih (c.after host s.1, s.2 ++ [c])
        refine ⟨c :: cs, ?_, ?_, ?_, ?_⟩
        · show (objNext (nusbObj host) noDeed (c.after host s.1, s.2 ++ [c]) ops).2 = _
          rw [h1]; simp
        · exact h2
        · simp only [objAnswers, nusbObj, List.filterMap_cons, replied, nusbAnswers, List.map_cons, id]
          rw [h3]
        · exact congrArg (c :: ·) h4
      | inr h =>
        obtain ⟨cs, h1, h2, h3, h4⟩ := ih s
        refine ⟨cs, h1, h2, ?_, ?_⟩
        · simp only [objAnswers, nusbObj, List.filterMap_cons, replied]; exact h3
        · exact h4

/-- A request with which the device crashes gets no answer. -/
theorem crash_panics (ops : List (Deed Empty (NusbCall ⊕ HandlerId))) : ∀ s : τ × List NusbCall,
    ∀ a ∈ objAnswers (nusbObj host) id noDeed s ops, ∀ h, a.1 = .inr h → a.2 = .panic := by
  induction ops with
  | nil => intro s a ha; cases ha
  | cons op ops ih =>
    intro s a ha h hh
    cases op with
    | app a => exact nomatch a
    | urb k =>
      simp only [objAnswers] at ha
      rcases List.mem_cons.mp ha with rfl | ha
      · dsimp only [id] at hh
        subst hh
        rfl
      · exact ih _ a ha h hh

theorem nusbAnswers_append (l m : List NusbCall) : ∀ t, nusbAnswers host t (l ++ m) =
    nusbAnswers host t l ++ nusbAnswers host (l.foldl (fun t c => c.after host t) t) m := by
  induction l with
  | nil => intro t; rfl
  | cons c l ih => intro t; simp only [List.cons_append, nusbAnswers, ih]; rfl

theorem nusbAnswers_length (l : List NusbCall) : ∀ t, (nusbAnswers host t l).length = l.length := by
  induction l with
  | nil => intro t; rfl
  | cons c l ih => intro t; simp only [nusbAnswers, List.length_cons, ih]

theorem nusbAnswers_prefix {l m : List NusbCall} (h : l <+: m) (t : τ) : nusbAnswers host t l <+: nusbAnswers host t m := by
  obtain ⟨r, rfl⟩ := h
  rw [nusbAnswers_append]
  exact List.prefix_append _ _

/-- As a request to the object. -/
def doesKey : NusbDoes → Option (NusbCall ⊕ HandlerId)
  | .call c => some (.inl c)
  | .crash h => some (.inr h)
  | .nothing => none

/-- A handler call on the device. -/
theorem nusbAnswer_obj (hl : host.Honest) (call : HCall) (s : τ × List NusbCall) :
    match doesKey (nusbDoes (fun _ => true) (fun _ => true) call) with
    | some k => nusbAnswer (fun h => watchNusb h (host.at h)) call s = nusbObj host k s
    | none => (nusbAnswer (fun h => watchNusb h (host.at h)) call s).2 = s := by
  have h := nusb_answer host hl (fun _ => true) (fun _ => true) (σ := Unit) ⟨fun _ _ _ _ _ _ s => (.ok [], s), fun _ _ _ _ s => (.ok [], s)⟩
    ((), s) call
  have e : ∀ u, (call.answer (nusbShared host (fun _ => true) (fun _ => true)
      (⟨fun _ _ _ _ _ _ s => (.ok [], s), fun _ _ _ _ s => (.ok [], s)⟩ : Env Unit)) u) =
      ((nusbAnswer (fun h => watchNusb h (host.at h)) call u.2).1, (u.1, (nusbAnswer (fun h => watchNusb h (host.at h)) call u.2).2)) := by
    intro u
    cases call <;> rfl
  rw [e] at h
  cases hd : nusbDoes (fun _ => true) (fun _ => true) call with
  | call l =>
    rw [hd] at h
    exact Prod.ext h.1 h.2
  | crash x =>
    rw [hd] at h
    exact Prod.ext h.2.1 h.2.2
  | nothing =>
    rw [hd] at h
    exact h.1

end

section
variable {σ τ : Type} {via : HandlerId → Option HandlerId} {host : HandlerId → NusbHost τ} {code : Code σ} {env : Env (HandlerId → σ)}

/-- The requests to device `o`. -/
def onNusb (via : HandlerId → Option HandlerId) (o : HandlerId) (call : HCall) : Option (NusbCall ⊕ HandlerId) :=
  if via call.target = some o then doesKey (nusbDoes (fun _ => true) (fun _ => true) call) else none

theorem onNusb_reached (via : HandlerId → Option HandlerId) (o : HandlerId) (dev : Device) :
    reachedBy dev (onNusb via o) id = fun cmd => doesKey (nusbRequest via o dev cmd) := by
  funext cmd
  cases cmd with
  | submit hd f len sf np iv setup data iso =>
    simp only [reachedBy, nusbRequest]
    cases Job.call ⟨dev, hd, len, setup, data⟩ with
    | none => rfl
    | some call =>
      simp only [onNusb, Option.bind_some, Option.map_id_fun, id]
      split <;> rfl
  | _ => rfl

/-- The handlers of a shared device work on it. -/
theorem nusb_works (o : HandlerId) (hl : (host o).Honest) :
    Works (nusbEnv via (watched host) env) o Prod.snd (onNusb via o) (nusbObj (host o)) := by
  have hans : ∀ (c : HCall) u, c.answer (nusbEnv via (watched host) env) u = viaAnswer via (watched host) env c u := by
    intro c u; cases c <;> rfl
  refine ⟨fun call k u hk => ?_, fun call u hk => ?_⟩
  · unfold onNusb at hk
    split at hk
    · rename_i hh
      have := nusbAnswer_obj (host o) hl call (u o).2
      rw [hk] at this
      dsimp only at this
      rw [hans]
      unfold viaAnswer
      rw [hh]
      dsimp only
      rw [show watched host o = fun h => watchNusb h ((host o).at h) from rfl, this, upd_self]
      exact ⟨rfl, rfl⟩
    · cases hk
  · rw [hans]
    unfold viaAnswer
    cases hh : via call.target with
    | none => rfl
    | some o' =>
      dsimp only
      by_cases ho : o = o'
      · subst ho
        rw [upd_self]
        unfold onNusb at hk
        rw [if_pos hh] at hk
        have := nusbAnswer_obj (host o) hl call (u o).2
        rw [hk] at this
        exact this
      · rw [upd_ne _ _ ho]

/-- Handler code only adds to the calls. -/
theorem nusb_goes (hl : ∀ o, (host o).Honest) {c : HCall} {s v : σ × (τ × List NusbCall)} {l : (nusbCode via (watched host) code).Local}
    (h : Goes (nusbCode via (watched host) code) ((nusbCode via (watched host) code).start c) s l v) : s.2.2 <+: v.2.2 := by
  have grow : ∀ (o : HandlerId) (x : τ × List NusbCall), x.2 <+: (nusbAnswer (watched host o) c x).2.2 := by
    intro o x
    have := nusbAnswer_obj (host o) (hl o) c x
    cases hc : doesKey (nusbDoes (fun _ => true) (fun _ => true) c) with
    | none => rw [hc] at this; dsimp only at this; rw [show watched host o = fun h => watchNusb h ((host o).at h) from rfl, this]; exact List.prefix_refl _
    | some k =>
      rw [hc] at this
      dsimp only at this
      rw [show watched host o = fun h => watchNusb h ((host o).at h) from rfl, this]
      cases k with
      | inl c => exact List.prefix_append _ _
      | inr h => exact List.prefix_refl _
  cases hh : via c.target with
  | none =>
    have hst : (nusbCode via (watched host) code).start c = .inr (code.start c) := by simp [nusbCode, hh]
    rw [hst] at h
    obtain ⟨_, _, _, h2⟩ := nusbCode_other h
    rw [h2]; exact List.prefix_refl _
  | some o' =>
    have hst : (nusbCode via (watched host) code).start c = .inl (o', .start c) := by simp [nusbCode, hh]
    rw [hst] at h
    rcases nusbCode_at h with ⟨_, rfl⟩ | ⟨_, rfl⟩ | ⟨n, r, _, _, hu⟩ | ⟨r, _, _, hu⟩
    · exact List.prefix_refl _
    · exact List.prefix_refl _
    · have := grow o' s.2
      rw [hu] at this
      exact this
    · have := grow o' s.2
      rw [hu] at this
      exact this

end

section
variable {σ τ : Type} {via : HandlerId → Option HandlerId} {host : HandlerId → NusbHost τ} {code : Code σ} {env : Env (HandlerId → σ)}
  {p : Profile} {devices : List Device} {dev : Device} {o : HandlerId}
  {w : World (HandlerId → σ × (τ × List NusbCall))}

/-- The calls made are those of the history, and perhaps one more. -/
theorem made_behind (hl : ∀ o, (host o).Honest) (hb : Behaves code env) {ls : List (MachineLabel (HandlerId → σ × (τ × List NusbCall)))}
    {s : Machine (nusbCode via (watched host) code)}
    (hK : KInv (nusbCode via (watched host) code) (nusbEnv via (watched host) env) p devices w ls s)
    (hun : ∀ a e0, s.whole.fine.app a ≠ some (o, e0)) :
    ((behindNet (nusbEnv via (watched host) env) p devices w ls).sys.shared.world.user o).2.2 <+: nusbMade s o := by
  obtain ⟨hI, w', hA, hr⟩ := whole_reach (nusb_behaves via _ code env hb) hK.whole
  obtain ⟨h1, _⟩ := C79_explained _ p devices w _ _ hr
  have h1' : w' = (behindNet (nusbEnv via (watched host) env) p devices w ls).sys.shared.world := h1
  rw [← h1']
  by_cases hf : s.whole.fine.free o
  · rw [hA.free o hf]; exact List.prefix_refl _
  · have : ∃ t i, s.whole.fine.inside t = some i ∧ (nusbCode via (watched host) code).obj i.call.target = o := by
      apply Classical.byContradiction
      intro hn
      exact hf ⟨fun t i hi ho => hn ⟨t, i, hi, ho⟩, hun⟩
    obtain ⟨t, i, hi, ho⟩ := this
    have g1 := hA.inside t i hi
    have g2 := hI.goes t i hi
    rw [ho] at g1 g2
    rw [g1]
    exact nusb_goes hl g2

end

end Usbip
