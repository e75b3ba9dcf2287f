import Verif.Spec.Physical
import Verif.Lemmas.Attended
import Verif.Props.Host
import Verif.Props.HostMutex
/-! Helper lemmas: a device that is shared through libusb, and a host that uses it. -/

namespace Usbip
open Spec

theorem prefix_drop {α : Type} {l m : List α} (h : l <+: m) (j : Nat) : l.drop j <+: m.drop j := by
  obtain ⟨t, rfl⟩ := h
  rw [List.drop_append]
  exact List.prefix_append _ _

section
variable {τ : Type} (lib : RusbLib τ)

/-- A handle, as an object that takes libusb calls. -/
def usbObj (c : LibCall) (s : Handle (τ × List LibCall)) : HRes × Handle (τ × List LibCall) :=
  if s.poisoned then (.panic, s)
  else if c.Overlong lib s.dev.1 then (.panic, ⟨(c.after lib s.dev.1, s.dev.2 ++ [c]), true⟩)
  else (.ok (readBytes (c.answer lib s.dev.1)), ⟨(c.after lib s.dev.1, s.dev.2 ++ [c]), false⟩)

/-- Nobody but libusb does anything. -/
def noAct (a : Empty) (s : Handle (τ × List LibCall)) : Handle (τ × List LibCall) := nomatch a, s

theorem usb_dead (ops : List (Deed Empty LibCall)) : ∀ s : Handle (τ × List LibCall), s.poisoned = true →
    objNext (usbObj lib) noAct s ops = s ∧ (objAnswers (usbObj lib) id noAct s ops).filterMap replied = [] := by
  induction ops with
  | nil => intro s _; exact ⟨rfl, rfl⟩
  | cons op ops ih =>
    intro s hs
    cases op with
    | app a => exact nomatch a
    | urb c =>
      have e : usbObj lib c s = (.panic, s) := by simp [usbObj, hs]
      obtain ⟨h1, h2⟩ := ih s hs
      refine ⟨?_, ?_⟩
      · show objNext (usbObj lib) noAct (usbObj lib c s).2 ops = s
        rw [e]; exact h1
      · simp only [objAnswers, e, List.filterMap_cons, replied]
        exact h2

/-- What happens to a handle. -/
theorem usb_run (ops : List (Deed Empty LibCall)) : ∀ s : Handle (τ × List LibCall),
    ∃ cs, (objNext (usbObj lib) noAct s ops).dev.2 = s.dev.2 ++ cs ∧
      (objNext (usbObj lib) noAct s ops).dev.1 = cs.foldl (fun t c => c.after lib t) s.dev.1 ∧
      (objAnswers (usbObj lib) id noAct s ops).filterMap replied <+: usbAnswers lib s.dev.1 cs ∧
      ((∀ a ∈ objAnswers (usbObj lib) id noAct s ops, a.2 ≠ .panic) →
        cs = (objAnswers (usbObj lib) id noAct s ops).map (·.1)) := by
  induction ops with
  | nil => intro s; exact ⟨[], by simp [objNext], rfl, List.nil_prefix, fun _ => rfl⟩
  | cons op ops ih =>
    intro s
    cases op with
    | app a => exact nomatch a
    | urb c =>
      have en : objNext (usbObj lib) noAct s (.urb c :: ops) = objNext (usbObj lib) noAct (usbObj lib c s).2 ops := rfl
      rw [en]
      simp only [objAnswers]
      by_cases hp : s.poisoned = true
      · have e : usbObj lib c s = (.panic, s) := by simp [usbObj, hp]
        obtain ⟨h1, h2⟩ := usb_dead lib ops s hp
        refine ⟨[], ?_, ?_, ?_, fun h => ?_⟩
        · rw [e, h1]; simp
        · rw [e, h1]; rfl
        · rw [e]
          simp only [List.filterMap_cons, replied]
          rw [h2]; exact List.nil_prefix
        · exact absurd (by rw [e]) (h _ (List.mem_cons_self))
      · by_cases ho : c.Overlong lib s.dev.1
        · have e : usbObj lib c s = (.panic, ⟨(c.after lib s.dev.1, s.dev.2 ++ [c]), true⟩) := by
            unfold usbObj; rw [if_neg hp, if_pos ho]
          obtain ⟨h1, h2⟩ := usb_dead lib ops ⟨(c.after lib s.dev.1, s.dev.2 ++ [c]), true⟩ rfl
          refine ⟨[c], ?_, ?_, ?_, fun h => ?_⟩
          · rw [e]; dsimp only; rw [h1]
          · rw [e]; dsimp only; rw [h1]; rfl
          · rw [e]
            simp only [List.filterMap_cons, replied]
            rw [h2]; exact List.nil_prefix
          · exact absurd (by rw [e]) (h _ (List.mem_cons_self))
        · have e : usbObj lib c s = (.ok (readBytes (c.answer lib s.dev.1)), ⟨(c.after lib s.dev.1, s.dev.2 ++ [c]), false⟩) := by
            unfold usbObj; rw [if_neg hp, if_neg ho]
          obtain ⟨cs, h1, h2, h3, h4⟩ := ih ⟨(c.after lib s.dev.1, s.dev.2 ++ [c]), false⟩
          refine ⟨c :: cs, ?_, ?_, ?_, fun h => ?_⟩
          · rw [e]; dsimp only; rw [h1]; simp
          · rw [e]; dsimp only; rw [h2]; rfl
          · rw [e]
            simp only [List.filterMap_cons, replied, usbAnswers]
            exact List.cons_prefix_cons.mpr ⟨rfl, h3⟩
          · rw [e] at h ⊢
            dsimp only at h ⊢
            rw [List.map_cons, ← h4 (fun a ha => h a (List.mem_cons_of_mem _ ha))]
            rfl

theorem usbAnswers_append (l m : List LibCall) : ∀ t, usbAnswers lib t (l ++ m) =
    usbAnswers lib t l ++ usbAnswers lib (l.foldl (fun t c => c.after lib t) t) m := by
  induction l with
  | nil => intro t; rfl
  | cons c l ih => intro t; simp only [List.cons_append, usbAnswers, ih]; rfl

theorem usbAnswers_length (l : List LibCall) : ∀ t, (usbAnswers lib t l).length = l.length := by
  induction l with
  | nil => intro t; rfl
  | cons c l ih => intro t; simp only [usbAnswers, List.length_cons, ih]

theorem usbAnswers_prefix {l m : List LibCall} (h : l <+: m) (t : τ) : usbAnswers lib t l <+: usbAnswers lib t m := by
  obtain ⟨r, rfl⟩ := h
  rw [usbAnswers_append]
  exact List.prefix_append _ _

/-- A handler call on the handle. -/
theorem usbAnswer_obj (call : HCall) (s : Handle (τ × List LibCall)) :
    match libCall call with
    | some c => s.locked (usbAnswer (watchLib lib) call) = usbObj lib c s
    | none => (s.locked (usbAnswer (watchLib lib) call)).2 = s := by
  obtain ⟨⟨t, log⟩, dead⟩ := s
  cases dead with
  | true =>
    cases hc : libCall call <;> simp [Handle.locked, usbObj]
  | false =>
    have one : ∀ {c : LibCall} {f : τ × List LibCall → HRes × (τ × List LibCall)},
        f (t, log) = (if c.Overlong lib t then .panic else .ok (readBytes (c.answer lib t)), (c.after lib t, log ++ [c])) →
        Handle.locked ⟨(t, log), false⟩ f = usbObj lib c ⟨(t, log), false⟩ := by
      intro c f hf
      unfold Handle.locked usbObj
      rw [hf]
      by_cases ho : c.Overlong lib t <;> simp [ho]
    have idle : ∀ {f : τ × List LibCall → HRes × (τ × List LibCall)}, f (t, log) = (.ok [], (t, log)) →
        (Handle.locked ⟨(t, log), false⟩ f).2 = ⟨(t, log), false⟩ := by
      intro f hf
      unfold Handle.locked
      rw [hf]
      rfl
    cases call with
    | dev h len st data =>
      simp only [libCall]
      exact one (rusbDev_any lib len st data t log)
    | iface h i ep len st data =>
      have hr := rusbIface_any lib ep len st data t log
      simp only [libCall]
      cases hc : ifaceCall ep len st data with
      | some c =>
        rw [hc] at hr
        exact one hr
      | none =>
        rw [hc] at hr
        exact idle hr

end

section
variable {σ τ : Type} {host : HandlerId → Option HandlerId} {lib : HandlerId → RusbLib τ} {code : Code σ} {env : Env (HandlerId → σ)}

/-- The calls on handle `o`. -/
def onHandle (host : HandlerId → Option HandlerId) (o : HandlerId) (call : HCall) : Option LibCall :=
  if host call.target = some o then libCall call else none

theorem onHandle_reached (host : HandlerId → Option HandlerId) (o : HandlerId) (dev : Device) :
    reachedBy dev (onHandle host o) id = usbRequest host o dev := by
  funext cmd
  cases cmd with
  | submit hd f len sf np iv setup data iso =>
    simp only [reachedBy, usbRequest]
    cases Job.call ⟨dev, hd, len, setup, data⟩ with
    | none => rfl
    | some call => simp [onHandle]
  | _ => rfl

/-- The handlers of a shared device work on its handle. -/
theorem host_works (o : HandlerId) :
    Works (hostEnv host (fun o => watchLib (lib o)) env) o Prod.snd (onHandle host o) (usbObj (lib o)) := by
  have hans : ∀ (c : HCall) u, c.answer (hostEnv host (fun o => watchLib (lib o)) env) u =
      hostAnswer host (fun o => watchLib (lib o)) env c u := by
    intro c u; cases c <;> rfl
  refine ⟨fun call k u hk => ?_, fun call u hk => ?_⟩
  · unfold onHandle at hk
    split at hk
    · rename_i hh
      have := usbAnswer_obj (lib o) call (u o).2
      rw [hk] at this
      dsimp only at this
      rw [hans]
      unfold hostAnswer
      rw [hh]
      dsimp only
      rw [this, upd_self]
      exact ⟨rfl, rfl⟩
    · cases hk
  · rw [hans]
    unfold hostAnswer
    cases hh : host call.target with
    | none => rfl
    | some o' =>
      dsimp only
      by_cases ho : o = o'
      · subst ho
        rw [upd_self]
        unfold onHandle at hk
        rw [if_pos hh] at hk
        have := usbAnswer_obj (lib o) call (u o).2
        rw [hk] at this
        exact this
      · rw [upd_ne _ _ ho]

/-- Handler code only adds to the calls. -/
theorem host_goes {c : HCall} {o : HandlerId} {s v : σ × Handle (τ × List LibCall)}
    {l : (hostCode host (fun o => watchLib (lib o)) code).Local}
    (h : Goes (hostCode host (fun o => watchLib (lib o)) code) ((hostCode host (fun o => watchLib (lib o)) code).start c) s l v)
    (ho : (hostCode host (fun o => watchLib (lib o)) code).obj c.target = o) :
    s.2.dev.2 <+: v.2.dev.2 := by
  have grow : ∀ (o : HandlerId) (x : Handle (τ × List LibCall)),
      x.dev.2 <+: (x.locked (usbAnswer (watchLib (lib o)) c)).2.dev.2 := by
    intro o x
    have := usbAnswer_obj (lib o) c x
    cases hc : libCall c with
    | none => rw [hc] at this; dsimp only at this; rw [this]; exact List.prefix_refl _
    | some k =>
      rw [hc] at this
      dsimp only at this
      rw [this]
      unfold usbObj
      split
      · exact List.prefix_refl _
      · split <;> exact List.prefix_append _ _
  cases hh : host c.target with
  | none =>
    have hst : (hostCode host (fun o => watchLib (lib o)) code).start c = .inr (code.start c) := by simp [hostCode, hh]
    rw [hst] at h
    obtain ⟨_, _, _, h2⟩ := hostCode_other h
    rw [h2]; exact List.prefix_refl _
  | some o' =>
    have hst : (hostCode host (fun o => watchLib (lib o)) code).start c = .inl (o', .start c) := by simp [hostCode, hh]
    rw [hst] at h
    rcases hostCode_at h with ⟨_, rfl⟩ | ⟨_, rfl, _⟩ | ⟨n, r, _, _, hp, hu⟩ | ⟨r, _, _, hu⟩
    · exact List.prefix_refl _
    · exact List.prefix_refl _
    · have := grow o' s.2
      simp only [Handle.locked, hp, hu] at this
      exact this
    · have := grow o' s.2
      rw [hu] at this
      exact this

end

section
variable {σ τ : Type} {host : HandlerId → Option HandlerId} {lib : HandlerId → RusbLib τ} {code : Code σ} {env : Env (HandlerId → σ)}
  {p : Profile} {devices : List Device} {dev : Device} {o : HandlerId}
  {w : World (HandlerId → σ × Handle (τ × List LibCall))}

/-- The calls made are those of the history, and perhaps one more. -/
theorem calls_behind (hb : Behaves code env) {ls : List (MachineLabel (HandlerId → σ × Handle (τ × List LibCall)))}
    {s : Machine (hostCode host (fun o => watchLib (lib o)) code)}
    (hK : KInv (hostCode host (fun o => watchLib (lib o)) code) (hostEnv host (fun o => watchLib (lib o)) env) p devices w ls s)
    (hun : ∀ a e0, s.whole.fine.app a ≠ some (o, e0)) :
    ((behindNet (hostEnv host (fun o => watchLib (lib o)) env) p devices w ls).sys.shared.world.user o).2.dev.2 <+: usbCalls s o := by
  obtain ⟨hI, w', hA, hr⟩ := whole_reach (C86_behaves host _ code env hb) hK.whole
  obtain ⟨h1, _⟩ := C79_explained _ p devices w _ _ hr
  have h1' : w' = (behindNet (hostEnv host (fun o => watchLib (lib o)) env) p devices w ls).sys.shared.world := h1
  rw [← h1']
  by_cases hf : s.whole.fine.free o
  · rw [hA.free o hf]; exact List.prefix_refl _
  · have : ∃ t i, s.whole.fine.inside t = some i ∧ (hostCode host (fun o => watchLib (lib o)) code).obj i.call.target = o := by
      apply Classical.byContradiction
      intro hn
      exact hf ⟨fun t i hi ho => hn ⟨t, i, hi, ho⟩, hun⟩
    obtain ⟨t, i, hi, ho⟩ := this
    have g1 := hA.inside t i hi
    have g2 := hI.goes t i hi
    rw [ho] at g1 g2
    rw [g1]
    exact host_goes g2 ho

end

end Usbip
