import Verif.Props.Locks
import Verif.Props.Requests
import Verif.Lemmas.Results
/-!
# What concurrent management calls return (C28, C35)
-/

namespace Usbip
open Spec Samples

/-- C35: what a management call returns is what it returns when the events are executed one at a
time: it returns (`f.code = .done (.call r)`) what its own event gives in the state made by the
events that had their effects before it, its effect being after its start. -/
theorem C35_results {σ} (env : Env σ) (p : Profile) (devices : List Device) (w : World σ)
    (ls : List (Label σ)) (s : Cfg σ) (h : Cfg.Reach env p (Cfg.init devices w) ls s) (t : Nat) (f : Flight σ)
    (hf : s.flights t = some f) (r : Outcome Unit) (hk : f.code = .done (.call r)) :
    ∃ pre post, ls = pre ++ .effect t f.ev :: post ∧ (∀ ev, .start t ev ∉ post) ∧
      let S := (Sys.init devices w).run env p (pre.filterMap Label.event)
      ((∃ d, f.ev = .addDevice d) ∧ r = .ok () ∨
        ∃ id, f.ev = .removeDevice id ∧ r = (S.shared.removeDevice id).1) := by
  have hI := CInv.reach h
  have hF := hI.fl t f hf
  obtain ⟨d, hwl, _⟩ := hF.prog
  rw [hk] at hwl
  have hown : f.owner = none := by
    cases ho : f.owner with
    | none => rfl
    | some c =>
      obtain ⟨_, y, hy⟩ := hF.conn hwl.1 c ho
      rw [hk] at hy
      simp [Task.exec] at hy
  obtain ⟨pre, post, hls, hst, hr⟩ := result_at h t f hf hwl.1 hown
  refine ⟨pre, post, hls, hst, ?_⟩
  rw [hk] at hr
  dsimp only [Task.exec] at hr
  rcases hF.kind with ⟨c, wr, _, ho⟩ | ⟨⟨d, hev⟩ | ⟨i, hev⟩, _⟩
  · rw [hown] at ho; simp at ho
  · rw [hev] at hr
    exact .inl ⟨⟨d, hev⟩, by simpa [afterEv] using hr⟩
  · rw [hev] at hr
    exact .inr ⟨i, hev, by simpa [afterEv] using hr⟩

/-- C28, with any other calls and connections running at the same time: a removal of `id` returns
`Ok` exactly if a device of that bus id was available at the moment of its effect, `Other` exactly
if none was and one was imported, `NotFound` exactly if there was none. -/
theorem C28_concurrent {σ} (env : Env σ) (p : Profile) (devices : List Device) (w : World σ)
    (ls : List (Label σ)) (s : Cfg σ) (h : Cfg.Reach env p (Cfg.init devices w) ls s) (t : Nat) (f : Flight σ)
    (hf : s.flights t = some f) (id : Bytes) (hev : f.ev = .removeDevice id) (r : Outcome Unit)
    (hk : f.code = .done (.call r)) :
    ∃ pre post, ls = pre ++ .effect t (.removeDevice id) :: post ∧ (∀ ev, .start t ev ∉ post) ∧
      let S := ((Sys.init devices w).run env p (pre.filterMap Label.event)).shared
      (r = .ok () ↔ ∃ d ∈ S.available, d.busId = id) ∧
      (r = .err .other ↔ (∀ d ∈ S.available, d.busId ≠ id) ∧ ∃ e ∈ S.used, e.2.busId = id) ∧
      (r = .err .notFound ↔ (∀ d ∈ S.available, d.busId ≠ id) ∧ ∀ e ∈ S.used, e.2.busId ≠ id) := by
  obtain ⟨pre, post, hls, hst, hr⟩ := C35_results env p devices w ls s h t f hf r hk
  refine ⟨pre, post, by rw [hls, hev], hst, ?_⟩
  rcases hr with ⟨⟨d, he⟩, _⟩ | ⟨i, he, rfl⟩
  · rw [hev] at he; simp at he
  · rw [hev] at he; cases he
    dsimp only
    generalize ((Sys.init devices w).run env p (pre.filterMap Label.event)).shared = S
    rcases removeDevice_cases S id with ⟨d, l1, l2, hl, hd, _, e⟩ | ⟨hn, hu, e⟩ | ⟨hn, hu, e⟩
    · have hm : d ∈ S.available := by rw [hl]; simp
      simp only [e, true_iff]
      exact ⟨⟨d, hm, hd⟩, by simp; exact fun hh => absurd hd (hh d hm), by simp; exact fun hh => absurd hd (hh d hm)⟩
    · simp only [e]
      refine ⟨by simp; exact hn, by simp; exact ⟨hn, by simpa using hu⟩, ?_⟩
      obtain ⟨x, hx, hb⟩ := hu
      simp
      intro _
      exact ⟨_, _, hx, hb⟩
    · simp only [e]
      refine ⟨by simp; exact hn, ?_, by simp; exact ⟨hn, by simpa using hu⟩⟩
      simp
      intro _ a b hab
      exact hu _ hab

theorem go_start_remove {σ} {env : Env σ} {p : Profile} {s0 s : Cfg σ} {t : Nat} {id : Bytes}
    (h : ∃ ls, Cfg.Reach env p s0 ls s) (ht : s.flights t = none) :
    ∃ s', Moved env p s0 s s' t (Flight.start (.removeDevice id) none (removeTask id)) ∧ s'.shared = s.shared := by
  obtain ⟨ls, h⟩ := h
  exact ⟨_, ⟨⟨_, .tail h (.remove s t id ht)⟩, upd_self _ _ _, fun u hu => upd_ne _ _ hu, rfl, rfl⟩, rfl⟩

/-- Two removals of the same device overlap: the first to get the lock returns `Ok`, the other
`NotFound`. -/
example : ∃ ls s f g, Cfg.Reach Samples.env dev (Cfg.init [devA] Samples.world) ls s ∧
    s.flights 0 = some f ∧ f.ev = .removeDevice devA.busId ∧ f.code = .done (.call (.err .notFound)) ∧
    s.flights 1 = some g ∧ g.ev = .removeDevice devA.busId ∧ g.code = .done (.call (.ok ())) := by
  obtain ⟨s1, ⟨h1, f1, o1, q1, c1⟩, e1⟩ := go_start_remove (t := 0) (id := devA.busId) ⟨_, .refl⟩
    (s0 := Cfg.init [devA] Samples.world) (env := Samples.env) (p := dev) rfl
  obtain ⟨s2, ⟨h2, f2, o2, q2, c2⟩, e2⟩ := go_start_remove (t := 1) (id := devA.busId) h1
    ((o1 1 (by decide)).trans rfl)
  have qe : ∀ l, s2.queue l = [] := fun l => by rw [q2, q1]; rfl
  have sh2 : s2.shared = Shared.newSimulated [devA] Samples.world := by rw [e2, e1]; rfl
  obtain ⟨s3, ⟨h3, f3, o3, q3, c3⟩, e3⟩ := go_lock h2 f2 rfl rfl (qe .avail) rfl (fun u g hu hg => by
    by_cases e : u = 0
    · subst e; rw [o2 0 (by decide), f1] at hg; cases hg; rfl
    · rw [o2 u hu, o1 u e] at hg; simp [Cfg.init] at hg)
  obtain ⟨s4, ⟨h4, f4, o4, q4, c4⟩, e4⟩ := go_getAvail h3 f3 rfl
  have a3 : s3.shared.available = [devA] := by rw [e3, sh2]; rfl
  rw [a3] at f4
  obtain ⟨s5, ⟨h5, f5, o5, q5, c5⟩, e5⟩ := go_commit h4 f4 rfl
  obtain ⟨s6, ⟨h6, f6, o6, q6, c6⟩, e6⟩ := go_putAvail h5 f5 rfl
  obtain ⟨s7, ⟨h7, f7, o7, q7, c7⟩, e7⟩ := go_unlock h6 f6 rfl
  have z7 : s7.flights 0 = some (Flight.start (.removeDevice devA.busId) none (removeTask devA.busId)) := by
    rw [o7 0 (by decide), o6 0 (by decide), o5 0 (by decide), o4 0 (by decide), o3 0 (by decide),
      o2 0 (by decide), f1]
  have n7 : ∀ u, u ≠ 0 → u ≠ 1 → s7.flights u = none := fun u h0 h1 => by
    rw [o7 u h1, o6 u h1, o5 u h1, o4 u h1, o3 u h1, o2 u h1, o1 u h0]; rfl
  have free : ∀ l u g, u ≠ 0 → s7.flights u = some g → g.held l = none := fun l u g hu hg => by
    by_cases e : u = 1
    · subst e; rw [f7] at hg; cases hg; cases l <;> rfl
    · rw [n7 u hu e] at hg; simp at hg
  have sh7 : s7.shared = ⟨[], [], Samples.world⟩ := by rw [e7, e6, e5, e4, e3, sh2]; rfl
  obtain ⟨s8, ⟨h8, f8, o8, q8, c8⟩, e8⟩ := go_lock h7 z7 rfl rfl
    (by rw [q7, q6, q5, q4, q3]; exact qe _) rfl (free .avail)
  obtain ⟨s9, ⟨h9, f9, o9, q9, c9⟩, e9⟩ := go_getAvail h8 f8 rfl
  rw [e8, sh7] at f9
  obtain ⟨s10, ⟨h10, f10, o10, q10, c10⟩, e10⟩ := go_lock h9 f9 rfl rfl
    (by rw [q9, q8, q7, q6, q5, q4, q3]; exact qe _) rfl
    (fun u g hu hg => free .used u g hu (by rw [← o8 u hu, ← o9 u hu]; exact hg))
  obtain ⟨s11, ⟨h11, f11, o11, q11, c11⟩, e11⟩ := go_commit h10 f10 rfl
  obtain ⟨s12, ⟨h12, f12, o12, q12, c12⟩, e12⟩ := go_getUsed h11 f11 rfl
  rw [e11, e10, e9, e8, sh7] at f12
  obtain ⟨s13, ⟨h13, f13, o13, q13, c13⟩, e13⟩ := go_unlock h12 f12 rfl
  obtain ⟨s14, ⟨⟨ls, h14⟩, f14, o14, q14, c14⟩, e14⟩ := go_unlock h13 f13 rfl
  have f1' := f7
  rw [← o8 1 (by decide), ← o9 1 (by decide), ← o10 1 (by decide), ← o11 1 (by decide), ← o12 1 (by decide),
    ← o13 1 (by decide), ← o14 1 (by decide)] at f1'
  exact ⟨ls, s14, _, _, h14, f14, rfl, rfl, f1', rfl, rfl⟩

end Usbip
