import Verif.Lemmas.Progress
/-! Helper lemmas: what management calls return when they run among other programs. -/

namespace Usbip
open Spec

/-- Another program's step leaves alone what a program holds. -/
theorem others_same {σ} {env : Env σ} {p : Profile} {S : Sys σ} {s s' : Cfg σ} {lb : Label σ}
    (hI : CInv env p S s) (st : Cfg.Step env p s lb s') {t : Nat} {f : Flight σ} (hf : s.flights t = some f)
    (hne : prog lb ≠ some t) {l : Lk} (hl : f.held l ≠ none) : Same l s'.shared s.shared := by
  have excl : ∀ {u : Nat} {g : Flight σ}, u ≠ t → s.flights u = some g → g.held l ≠ some .w := by
    intro u g hu hg hw
    cases hh : f.held l with
    | none => exact hl hh
    | some m =>
      have := hI.excl t u f g l m .w (fun e => hu e.symm) hf hg hh hw
      rw [compatible_w] at this
      simp at this
  cases st with
  | putUsed u g v k hu hk =>
    have ne : u ≠ t := fun e => hne (by rw [e]; rfl)
    obtain ⟨d, hwl, _⟩ := (hI.fl u g hu).prog
    rw [hk] at hwl
    cases l with
    | used => exact absurd hwl.2.1 (excl ne hu)
    | avail => rfl
  | putAvail u g v k hu hk =>
    have ne : u ≠ t := fun e => hne (by rw [e]; rfl)
    obtain ⟨d, hwl, _⟩ := (hI.fl u g hu).prog
    rw [hk] at hwl
    cases l with
    | avail => exact absurd hwl.2.1 (excl ne hu)
    | used => rfl
  | user fn crash => cases l <;> rfl
  | commit u g fn k hu hk => cases l <;> rfl
  | connect c input h => cases l <;> rfl
  | iterate u c w x ht hc hr hi => cases l <;> rfl
  | add u d ht => cases l <;> rfl
  | remove u i ht => cases l <;> rfl
  | request u g l' m k hu hk hw => cases l <;> rfl
  | grant u g l' m k q hu hk hw hq hc => cases l <;> rfl
  | unlock u g l' k hu hk => cases l <;> rfl
  | getUsed u g k hu hk => cases l <;> rfl
  | getAvail u g k hu hk => cases l <;> rfl
  | send u g k hu hk => cases l <;> rfl
  | finish u g x hu hk => cases l <;> rfl
  | abandon u g hu hc => cases l <;> rfl
  | cancel c x hc hr hi => cases l <;> rfl

/-- A program that has had its effect will end with what its event gave then. -/
theorem result_at {σ} {env : Env σ} {p : Profile} {devices : List Device} {w : World σ}
    {ls : List (Label σ)} {s : Cfg σ} (h : Cfg.Reach env p (Cfg.init devices w) ls s) :
    ∀ (t : Nat) (f : Flight σ), s.flights t = some f → f.committed = true → f.owner = none →
    ∃ pre post, ls = pre ++ .effect t f.ev :: post ∧ (∀ ev, .start t ev ∉ post) ∧
      (f.code.exec s.shared).2 =
        (afterEv env p f.ev none ((Sys.init devices w).run env p (pre.filterMap Label.event)).shared).2 := by
  induction h with
  | refl => intro t f hf; simp [Cfg.init] at hf
  | @tail ls s lb s' h st ih =>
    intro t f' hf' hcm' ho'
    have hI := CInv.reach h
    have more : ∀ (f : Flight σ), s.flights t = some f → f.committed = true → f.owner = none → f.ev = f'.ev →
        (∀ ev, lb ≠ .start t ev) → (f'.code.exec s'.shared).2 = (f.code.exec s.shared).2 →
        ∃ pre post, ls ++ [lb] = pre ++ .effect t f'.ev :: post ∧ (∀ ev, .start t ev ∉ post) ∧
          (f'.code.exec s'.shared).2 =
            (afterEv env p f'.ev none ((Sys.init devices w).run env p (pre.filterMap Label.event)).shared).2 := by
      intro f hf hc ho he hns hx
      obtain ⟨pre, post, hls, hst, hr⟩ := ih t f hf hc ho
      refine ⟨pre, post ++ [lb], by rw [hls, ← he]; simp, fun ev hm => ?_, by rw [hx, hr, he]⟩
      rcases List.mem_append.1 hm with hm | hm
      · exact hst ev hm
      · exact hns ev (List.mem_singleton.1 hm).symm
    by_cases hne : prog lb = some t
    case neg =>
      have hf : s.flights t = some f' := by rw [← flights_other st hne]; exact hf'
      obtain ⟨d, hwl, _⟩ := (hI.fl t f' hf).prog
      rw [hcm'] at hwl
      refine more f' hf hcm' ho' rfl (fun ev e => hne (by rw [e]; rfl)) ?_
      exact (exec_depends f'.code f'.held d s'.shared s.shared hwl
        (fun l hl => others_same hI st hf hne hl)).1
    have wl : ∀ {f : Flight σ}, s.flights t = some f → ∃ d, f.code.WL f.held f.committed d :=
      fun hf => by obtain ⟨d, hwl, _⟩ := (hI.fl t _ hf).prog; exact ⟨d, hwl⟩
    cases st with
    | connect c input hc => simp [prog] at hne
    | user fn crash => simp [prog] at hne
    | cancel c x hc hr hi => simp [prog] at hne
    | iterate u c wr x ht hc hr hi =>
      cases hne; rw [put_same] at hf'; cases hf'; simp [Flight.start] at hcm'
    | add u d ht => cases hne; rw [put_same] at hf'; cases hf'; simp [Flight.start] at hcm'
    | remove u i ht => cases hne; rw [put_same] at hf'; cases hf'; simp [Flight.start] at hcm'
    | request u f l m k ht hk hw =>
      cases hne; simp only [put_same] at hf'; cases hf'
      obtain ⟨d, hwl⟩ := wl ht
      rw [hk] at hwl
      have := hwl.1
      dsimp only at hcm'
      rw [this] at hcm'; simp at hcm'
    | grant u f l m k q ht hk hw hq hc =>
      cases hne; simp only [put_same] at hf'; cases hf'
      obtain ⟨d, hwl⟩ := wl ht
      rw [hk] at hwl
      have := hwl.1
      dsimp only at hcm'
      rw [this] at hcm'; simp at hcm'
    | unlock u f l k ht hk =>
      cases hne; simp only [put_same] at hf'; cases hf'
      exact more f ht hcm' ho' rfl (fun ev e => by simp at e) (by rw [hk]; rfl)
    | getUsed u f k ht hk =>
      cases hne; simp only [put_same] at hf'; cases hf'
      exact more f ht hcm' ho' rfl (fun ev e => by simp at e) (by rw [hk]; rfl)
    | getAvail u f k ht hk =>
      cases hne; simp only [put_same] at hf'; cases hf'
      exact more f ht hcm' ho' rfl (fun ev e => by simp at e) (by rw [hk]; rfl)
    | putUsed u f v k ht hk =>
      cases hne; simp only [put_same] at hf'; cases hf'
      exact more f ht hcm' ho' rfl (fun ev e => by simp at e) (by rw [hk]; rfl)
    | putAvail u f v k ht hk =>
      cases hne; simp only [put_same] at hf'; cases hf'
      exact more f ht hcm' ho' rfl (fun ev e => by simp at e) (by rw [hk]; rfl)
    | send u f k ht hk =>
      cases hne; simp only [put_same] at hf'; cases hf'
      exact more f ht hcm' ho' rfl (fun ev e => by simp at e) (by rw [hk]; rfl)
    | finish u f x ht hk => cases hne; simp only [put_same] at hf'; simp at hf'
    | abandon u f ht hc => cases hne; simp only [put_same] at hf'; simp at hf'
    | commit u f g k ht hk =>
      cases hne; simp only [put_same] at hf'; cases hf'
      dsimp only at ho'
      obtain ⟨d, hwl, hp⟩ := (hI.fl _ f ht).prog
      rw [hk] at hwl hp
      have hcm : f.committed = false := hwl.1
      refine ⟨ls, [], rfl, fun ev hm => by simp at hm, ?_⟩
      generalize (Sys.init devices w).run env p (ls.filterMap Label.event) = S at *
      have e := hp hcm S.shared (fun _ l hl => hI.held_data ht hcm hl)
      rw [ho'] at e
      dsimp only [Option.bind_none] at e ⊢
      rw [← e]
      dsimp only [Task.exec]
      rw [hI.world]
      refine (exec_depends (k s.shared.world) f.held d _ _ (hwl.2 s.shared.world) (fun l hl => ?_)).1
      have := (hI.held_data ht hcm hl).symm
      cases l with
      | used => exact this
      | avail => exact this

end Usbip
