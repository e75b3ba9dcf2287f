import Verif.Lemmas.Workers
import Verif.Lemmas.DriverSample
/-!
# One client and one worker thread: executions
-/

namespace Usbip
open Spec Samples

section
variable {τ : Type} {code : Code τ} {env : Env (HandlerId → τ)} {p : Profile} {devices : List Device}
  {w : World (HandlerId → τ)}

/-- Up to time `A` a call of `server` waits for its only client; then there is the connection. -/
structure OneClient (e : MachineExec code env p (Machine.init code devices w)) (A : Nat) : Prop where
  acc : ∀ n k c bs fin, e.label n = some (.accept k c bs fin) → n < A ∧ k = 0
  err : ∀ n k, e.label n ≠ some (.acceptErr k)
  srv : ∀ n lb, e.label n = some (.inner lb) → A ≤ n
  starts : ∀ n t ev, e.label n = some (.inner (.server (.start t ev))) → ∃ w, ev = .iterate 0 w
  conns : ∀ n c, (e.state n).whole.fine.cfg.conns c ≠ none → c = 0

/-- Who begins with what. -/
theorem whole_begins {s s' : Whole code} {lb : Option (TcpLabel (HandlerId → τ))}
    (st : Whole.Moves code env p s lb s') {t : Nat} {f : Flight (HandlerId → τ)} (h1 : s.fine.cfg.flights t = none)
    (h2 : s'.fine.cfg.flights t = some f) :
    ∃ ev, lb = some (.server (.start t ev)) ∧ ∀ c wr, ev = .iterate c wr → f.owner = some c := by
  have hlab : ∃ l, lb = some (.server l) ∧ prog l = some t := by
    refine Classical.byContradiction fun hn => ?_
    rw [whole_flights_other st (fun l hl hp => hn ⟨l, hl, hp⟩), h1] at h2; cases h2
  obtain ⟨l, rfl, hp⟩ := hlab
  rcases st with st | ⟨h, _⟩
  rotate_left
  · cases h
  generalize hlab : (some (TcpLabel.server l)) = ol at st
  cases st with
  | socket lb a st hl ho =>
    cases hlab
    obtain ⟨a', b', st', ha', _, hb', _⟩ := tcp_flightStep st
    obtain ⟨g, rfl, hg⟩ := first_step st' (by rw [ha']; exact h1) hp
    refine ⟨g.ev, rfl, fun c wr he => ?_⟩
    rw [he] at st
    have h2' : a.cfg.flights t = some f := h2
    cases st with
    | iterate t c wr x ht hc hr hi =>
      dsimp only [Cfg.put] at h2'
      rw [upd_self] at h2'; cases h2'; rfl
    | iterateEnd t c wr x er ht hc hr hi =>
      dsimp only [Cfg.put] at h2'
      rw [upd_self] at h2'; cases h2'; rfl
    | other l cfg' st k1 k2 k3 => exact absurd rfl (k2 _ _ _)
  | handler lb f' st hl =>
    cases st with
    | outer lb cfg' st =>
      simp only [Option.map_some, Option.some.injEq, TcpLabel.server.injEq] at hlab
      subst hlab
      obtain ⟨g, rfl, _⟩ := first_step st h1 hp
      exact absurd hl id
    | poisoned t' f g k c cont ht =>
      cases hlab; cases hp; rw [h1] at ht; cases ht
    | leave t' f i r ht hf' =>
      cases hlab; cases hp; rw [h1] at hf'; cases hf'
    | appLeave a o e ha' => cases hlab; cases hp
    | appCrash a o e ha' => cases hlab; cases hp
    | appPanic o hf => cases hlab; cases hp
    | _ => cases hlab

variable {e : MachineExec code env p (Machine.init code devices w)} {e1 : WholeExec code env p (Whole.init code devices w)}
  {e2 : TcpExec env p (Tcp.init devices w)} {A : Nat}

theorem OneClient.flights (U : OneClient e A) (B : Within e e1) (n t : Nat) (f : Flight (HandlerId → τ))
    (hf : (e.state n).whole.fine.cfg.flights t = some f) : A < n ∧ f.owner = some 0 := by
  induction n generalizing f with
  | zero => rw [e.init] at hf; cases hf
  | succ n ih =>
    by_cases hu : Unlabelled e t n
    · rw [B.flights_other hu] at hf
      have := ih f hf
      exact ⟨by omega, this.2⟩
    · cases h0 : (e.state n).whole.fine.cfg.flights t with
      | some f0 =>
        have := ih f0 h0
        rcases B.flights_own h0 hu with h | ⟨_, h⟩
        · rw [h] at hf; cases hf
        · exact ⟨by omega, by rw [(h f hf).1]; exact this.2⟩
      | none =>
        obtain ⟨st, he⟩ := B.first n
        obtain ⟨ev, hl, hev⟩ := whole_begins st h0 (by rw [he]; exact hf)
        have hl' : e.label n = some (.inner (.server (.start t ev))) := by
          generalize e.label n = lb at hl
          unfold Usbip.label0 at hl
          split at hl
          · cases hl
          · unfold inServer at hl
            split at hl
            · cases hl; rfl
            · cases hl
        obtain ⟨wr, rfl⟩ := U.starts n t ev hl'
        exact ⟨by have := U.srv n _ hl'; omega, hev 0 wr rfl⟩

/-- Getting further takes a program. -/
theorem Within.acts_flight (B : Within e e1) (C : Behind e1 e2) {n t : Nat}
    (ha : Acts t (e.state n).whole (inServer (e.label n)) (e.state (n + 1)).whole) :
    ∃ f, (e.state n).whole.fine.cfg.flights t = some f := by
  have hI := C.inv (3 * n)
  rw [B.state0] at hI
  obtain ⟨st, he⟩ := B.first n
  have ha := acts_first (e.step n) ha
  rcases st with st | ⟨h1, h2⟩
  · exact can_flight hI st ha
  · rw [h1, h2] at ha
    rcases ha with ⟨l, h, _⟩ | ⟨h, h'⟩ | ⟨i, h, _⟩
    · cases h
    · exact absurd h h'
    · obtain ⟨f, _, _, hf, _⟩ := hI.call t i h
      exact ⟨f, hf⟩

/-- Whose turn it is. -/
def whoseTurn (A n : Nat) : Duty := if n < A then .serve 0 else .conn 0

theorem OneClient.only (U : OneClient e A) (B : Within e e1) (C : Behind e1 e2) (n : Nat) (M : Move)
    (h : M.Made (e.state n) (e.label n) (e.state (n + 1))) : M.Of (whoseTurn A n) (e.state n) := by
  cases M with
  | prog t =>
    obtain ⟨f, hf⟩ := B.acts_flight C h
    obtain ⟨h1, h2⟩ := U.flights B n t f hf
    refine ⟨f, hf, ?_⟩
    unfold whoseTurn dutyOf
    rw [if_neg (by omega), h2]
  | read c =>
    obtain ⟨hl, _⟩ := h
    have h1 := U.srv n _ hl
    have st := (B.first n).1
    rw [hl] at st
    have hc : c = 0 := by
      rcases st with st | ⟨h, _⟩
      rotate_left
      · cases h
      have st := whole_tcp_step st (fun l h => by cases h)
      generalize (mid1 (e.state n) (some (MachineLabel.inner (TcpLabel.take c))) (e.state (n + 1))).tcp = s2 at st
      cases st with
      | take c x bs rest hc hi hb => exact U.conns n c (by rw [show (e.state n).whole.fine.cfg.conns c = some x from hc]; simp)
    show whoseTurn A n = .conn c
    unfold whoseTurn
    rw [if_neg (by omega), hc]
  | loop c =>
    obtain ⟨t, wr, hl⟩ := h
    have h1 := U.srv n _ hl
    obtain ⟨wr', h2⟩ := U.starts n t _ hl
    cases h2
    show whoseTurn A n = .conn 0
    unfold whoseTurn
    rw [if_neg (by omega)]
  | accept k =>
    rcases h with ⟨c, bs, fin, hl⟩ | hl
    · obtain ⟨h1, rfl⟩ := U.acc n k c bs fin hl
      show whoseTurn A n = .serve 0
      unfold whoseTurn
      rw [if_pos h1]
    · exact absurd hl (U.err n k)

theorem OneClient.blocked (U : OneClient e A) (B : Within e e1) {n : Nat} {j : Duty} (hj : whoseTurn A n = j)
    (hs : Synchronous j (e.state n)) : whoseTurn A (n + 1) = j := by
  obtain ⟨t, f, g, k, hf, hj', _⟩ := hs
  obtain ⟨h1, h2⟩ := U.flights B n t f hf
  rw [← hj]
  unfold whoseTurn
  rw [if_neg (by omega), if_neg (by omega)]

/-- One thread is enough for a client that comes to an end. -/
theorem OneClient.rests (U : OneClient e A) (hb : Behaves code env) {T : Nat} {s : Machine code} (hA : A ≤ T)
    (hs : ∀ m, T ≤ m → e.state m = s ∧ e.label m = none)
    (hfl : ∀ t, s.whole.fine.cfg.flights t = none) (hap : ∀ a, s.whole.fine.app a = none)
    (reads : ∀ c x, s.whole.fine.cfg.conns c = some x → s.whole.buf c = [])
    (loops : ∀ c x, s.whole.fine.cfg.conns c = some x → x.status ≠ .running)
    (calls : ∀ k c q, s.calls k ≠ some (.listening (c :: q))) :
    Pool e 1 (fun n v => if v = 0 ∧ n < T then some (whoseTurn A n) else none) ∧ Outside e := by
  obtain ⟨e1, B⟩ := exists_within hb e
  obtain ⟨e2, C⟩ := exists_behind hb e1
  have hin : ∀ t, s.whole.fine.inside t = none := by
    intro t
    refine Classical.byContradiction fun h => ?_
    rw [← (hs T (Nat.le_refl _)).1] at h
    obtain ⟨f, _, _, hf, _⟩ := B.call C h
    rw [(hs T (Nat.le_refl _)).1, hfl] at hf; cases hf
  have notSync : ∀ j m, T ≤ m → ¬ Synchronous j (e.state m) := by
    rintro j m hm ⟨t, f, _, _, hf, _⟩
    rw [(hs m hm).1, hfl] at hf; cases hf
  have notCan : ∀ (M : Move) m, T ≤ m → ¬ M.Can code env p (e.state m) := by
    intro M m hm h
    rw [(hs m hm).1] at h
    cases M with
    | prog t =>
      obtain ⟨lb, s', st, ha⟩ := h
      exact quiet_acts hfl hin st t ha
    | read c =>
      obtain ⟨s', st, hb⟩ := h
      refine hb ?_
      have st := whole_tcp_step st (fun l e => by cases e)
      generalize ht : s'.tcp = s2 at st
      cases st with
      | take _ x bs rest hc hi hbuf =>
        have h0 : s.whole.buf c = [] := reads c x hc
        have hbuf' : s.whole.buf c = bs ++ rest := hbuf
        rw [h0] at hbuf'
        obtain ⟨_, h2⟩ := List.append_eq_nil_iff.1 hbuf'.symm
        have : s'.buf = upd s.whole.buf c rest := congrArg Tcp.buf ht
        rw [this, upd_self, h2, h0]
    | loop c =>
      obtain ⟨t, wr, s', st⟩ := h
      have st := whole_tcp_step st (fun l e => by cases e; exact id)
      generalize s'.tcp = s2 at st
      cases st with
      | iterate _ _ _ x ht hc hr hi hd => exact loops c x hc hr
      | iterateEnd _ _ _ x e ht hc hr hi he hb => exact loops c x hc hr
      | other _ _ st h1 h2 h3 => exact h2 _ _ _ rfl
    | accept k =>
      obtain ⟨c, q, h⟩ := h
      exact calls k c q h
  refine ⟨⟨fun n v hv => if_neg (by omega), fun n M h => ?_, fun n v j hv h1 h2 => ?_, fun n j M h _ => ?_,
    fun n v j t h => ?_, fun n v j h => ?_, fun n j h => ?_⟩, fun a n => ?_, fun c n => ?_, fun k n => ?_⟩
  · refine ⟨_, 0, U.only B C n M h, if_pos ⟨rfl, Nat.lt_of_not_le fun hm => ?_⟩⟩
    obtain ⟨hl1, hl2⟩ := hs n hm
    cases M with
    | prog t =>
      obtain ⟨f, hf⟩ := B.acts_flight C h
      rw [hl1, hfl] at hf; cases hf
    | read c => obtain ⟨h, _⟩ := h; rw [hl2] at h; cases h
    | loop c => obtain ⟨_, _, h⟩ := h; rw [hl2] at h; cases h
    | accept k => rcases h with ⟨_, _, _, h⟩ | h <;> rw [hl2] at h <;> cases h
  · by_cases hc : v = 0 ∧ n < T
    · rw [if_pos hc] at hv
      have hn : n + 1 < T := Nat.lt_of_not_le fun hm => notSync j _ hm h2
      rw [if_pos ⟨hc.1, hn⟩, U.blocked B (Option.some.inj hv) h1]
    · rw [if_neg hc] at hv; cases hv
  · exact absurd (h (max n T) (by omega)).2 (notCan M _ (by omega))
  · obtain ⟨_, _, _, f, _, _, hf, _⟩ := h (max n T) (by omega)
    rw [(hs _ (by omega)).1, hfl] at hf; cases hf
  · have := h (max n T) (by omega)
    rw [if_neg (by omega)] at this; cases this
  · rcases h (max n T) (by omega) with h | ⟨M, _, h⟩
    · exact absurd h (notSync j _ (by omega))
    · exact absurd h (notCan M _ (by omega))
  · exact ⟨max n T, by omega, by rw [(hs _ (by omega)).1]; exact hap a⟩
  · refine ⟨max n T, by omega, .inr ?_⟩
    rw [(hs _ (by omega)).1]
    rintro ⟨b, s', st⟩
    have st := whole_tcp_step st (fun l e => by cases e)
    generalize s'.tcp = s2 at st
    cases st with
    | piece t _ f k y bs ht ho hk hy hp =>
      have ht' : s.whole.fine.cfg.flights t = some f := ht
      rw [hfl t] at ht'; cases ht'
  · refine ⟨max n T, by omega, .inr fun m' hm' h => ?_⟩
    rw [(hs _ (by omega)).2] at h; cases h

/-- One thread, kept by a handler that does not return. -/
theorem OneClient.sleeps (U : OneClient e A) (hb : Behaves code env) {T t : Nat} {s : Machine code} {i : Inside code} (hA : A ≤ T)
    (hs : ∀ m, T ≤ m → e.state m = s ∧ e.label m = none)
    (hi : s.whole.fine.inside t = some i) (hr : code.result i.loc = none) (hst : ∀ v, code.step i.loc v = (i.loc, v)) :
    Pool e 1 (fun n v => if v = 0 then some (whoseTurn A n) else none) := by
  obtain ⟨e1, B⟩ := exists_within hb e
  obtain ⟨e2, C⟩ := exists_behind hb e1
  have late : ∀ m, A ≤ m → whoseTurn A m = .conn 0 := fun m hm => if_neg (by omega)
  have flight : ∀ m, T ≤ m → ∃ f g k, (e.state m).whole.fine.cfg.flights t = some f ∧ f.code = .commit g k ∧ dutyOf t f = .conn 0 := by
    intro m hm
    obtain ⟨f, g, k, hf, hk⟩ := B.call C (n := m) (t := t) (by rw [(hs m hm).1, hi]; simp)
    refine ⟨f, g, k, hf, hk, ?_⟩
    unfold dutyOf
    rw [(U.flights B m t f hf).2]
  have acts : ∀ m, T ≤ m → Acts t (e.state m).whole (inServer (e.label m)) (e.state (m + 1)).whole := by
    intro m hm
    rw [(hs m hm).1, (hs (m + 1) (by omega)).1]
    exact .inr (.inr ⟨i, hi, hr, by rw [hst]; exact hi, by rw [hst]⟩)
  have mine : ∀ n v j, (if v = 0 then some (whoseTurn A n) else none) = some j → v = 0 ∧ whoseTurn A n = j := by
    intro n v j h
    split at h
    · exact ⟨by assumption, Option.some.inj h⟩
    · cases h
  have prog_t : ∀ m u, T ≤ m → (Move.prog u).Of (.conn 0) (e.state m) → u = t := by
    rintro m u hm ⟨f', hf', h⟩
    obtain ⟨f, g, k, hf, hk, hd⟩ := flight m hm
    exact duty_inj (B.tame C m) hf' hf (by rw [hd]; exact h.symm)
  have busy : ∀ m, T ≤ m → ¬ (e.state m).whole.fine.cfg.idle 0 := by
    intro m hm hid
    obtain ⟨f, g, k, hf, _⟩ := flight m hm
    exact hid t f hf (U.flights B m t f hf).2
  refine ⟨fun n v hv => if_neg (by omega), fun n M h => ⟨_, 0, U.only B C n M h, rfl⟩, fun n v j hv h1 h2 => ?_, fun n j M h hon => ?_,
    fun n v j u h => ?_, fun n v j h => ?_, fun n j _ h => ?_⟩
  · obtain ⟨rfl, hj⟩ := mine n v j hv
    rw [if_pos rfl, U.blocked B hj h1]
  · obtain ⟨m, v, hm, hv⟩ := hon (max n T) (by omega)
    obtain ⟨rfl, hj⟩ := mine _ _ _ hv
    rw [late m (by omega)] at hj
    subst hj
    obtain ⟨h1, h2⟩ := h m (by omega)
    refine ⟨m, by omega, ?_⟩
    cases M with
    | prog u =>
      rw [prog_t m u (by omega) h1]
      exact acts m (by omega)
    | read c =>
      obtain ⟨s', st, _⟩ := h2
      cases h1
      exact absurd (idle_of_take (.inl st)) (busy m (by omega))
    | loop c =>
      obtain ⟨u, wr, s', st⟩ := h2
      cases h1
      exact absurd (idle_of_start (.inl st)) (busy m (by omega))
    | accept k => cases h1
  · obtain ⟨hv, h1, h2, _⟩ := h (max n T) (by omega)
    obtain ⟨rfl, hj⟩ := mine _ _ _ hv
    rw [late _ (by omega)] at hj
    subst hj
    rw [prog_t _ u (by omega) h1, (hs _ (by omega)).1, hi] at h2
    cases h2
  · refine ⟨max n T, by omega, fun m hm => ?_⟩
    obtain ⟨rfl, hv⟩ := mine _ _ _ (h m (by omega))
    rw [late _ (by omega)] at hv
    subst hv
    obtain ⟨f, g, k, hf, hk, hd⟩ := flight m (by omega)
    exact ⟨t, f, g, k, hf, hd.symm, hk⟩
  · exfalso
    obtain ⟨m, v, hm, hv, h⟩ := h (max n T) (by omega)
    obtain rfl : v = 0 := by omega
    rw [if_pos rfl, if_pos rfl, late _ (by omega), late _ (by omega)] at h
    rcases h with h | h
    · cases h
    · exact h rfl

end

/-- From a state in which nobody uses a handler: an execution on sockets in which no handler is called is one in which handler
code runs step by step. -/
theorem lift_calm {τ} {code : Code τ} {env : Env (HandlerId → τ)} (hb : Behaves code env)
    {p : Profile} {devices : List Device} {w : World (HandlerId → τ)} {s0 : Whole code}
    {ls0 ls : List (TcpLabel (HandlerId → τ))} {a : Tcp (HandlerId → τ)}
    (h0 : Tcp.Reach env p (Tcp.init devices w) ls0 s0.tcp) (hin0 : ∀ t, s0.fine.inside t = none)
    (hap0 : ∀ x, s0.fine.app x = none) (hr : Tcp.Reach env p s0.tcp ls a) (m : τ → Nat)
    (h1 : ∀ c u, m (u (code.obj (HCall.target c))) < m ((HCall.answer env u c).2 (code.obj c.target)))
    (h2 : ∀ c u o, m (u o) ≤ m ((HCall.answer env u c).2 o))
    (h4 : ∀ o, m (a.cfg.shared.world.user o) ≤ m (s0.fine.cfg.shared.world.user o))
    (hu' : ∀ f crash, .server (.outside (.user f crash)) ∉ ls) :
    ∃ s : Whole code, Whole.Reach code env p s0 ls s ∧ s.tcp = a ∧
      (∀ t, s.fine.inside t = none) ∧ (∀ x, s.fine.app x = none) ∧
      ∀ o, m (s0.fine.cfg.shared.world.user o) ≤ m (s.fine.cfg.shared.world.user o) := by
  induction hr with
  | refl => exact ⟨_, .refl, rfl, hin0, hap0, fun _ => Nat.le_refl _⟩
  | @tail ls a lb a' h st ih =>
    have hmono := fun o => count_step (h0.trans h) st (fun f cr e => hu' f cr (by simp [e])) m h2 o
    obtain ⟨s, hs, rfl, hin, hap, hle⟩ := ih (fun o => Nat.le_trans (hmono o) (h4 o)) (fun f cr hf => hu' f cr (List.mem_append_left _ hf))
    have hC : Covered env p s.fine.cfg := fun t f g k ht hk => tcp_covered (h0.trans h) t f g k ht hk
    have hend : ∀ {s2 : Whole code}, s2.tcp = a' → ∀ o, m (s0.fine.cfg.shared.world.user o) ≤ m (s2.fine.cfg.shared.world.user o) := by
      intro s2 e o
      refine Nat.le_trans (hle o) ?_
      have := hmono o
      rw [← e] at this
      exact this
    by_cases hl : ∃ l, lb = .server l ∧ ofHandlers (some l)
    · obtain ⟨l, rfl, hl⟩ := hl
      have viaFine : ∀ (f' : Fine code), Fine.Reach code env p s.fine [l] f' → f'.inside = s.fine.inside →
          f'.app = s.fine.app → ({ s with fine := f' } : Whole code).tcp = a' →
          ∃ s : Whole code, Whole.Reach code env p s0 (ls ++ [.server l]) s ∧ s.tcp = a' ∧
            (∀ t, s.fine.inside t = none) ∧ (∀ x, s.fine.app x = none) ∧
            ∀ o, m (s0.fine.cfg.shared.world.user o) ≤ m (s.fine.cfg.shared.world.user o) := by
        intro f' hf e1 e2 e3
        refine ⟨_, hs.trans (lift_fine s hf (fun l' hm => by rw [List.mem_singleton.mp hm]; exact hl)), e3, ?_, ?_, hend e3⟩
        · intro t; dsimp only; rw [e1]; exact hin t
        · intro t; dsimp only; rw [e2]; exact hap t
      cases st with
      | connect c hc => exact absurd hl id
      | iterate => exact absurd hl id
      | iterateEnd => exact absurd hl id
      | sent => exact absurd hl id
      | other _ cfg' st h1' h2' h3' =>
        cases st with
        | user f crash => exact absurd (by simp) (hu' f crash)
        | commit t f g k ht hk =>
          cases hc : s.fine.cfg.call p f with
          | some c =>
            refine viaFine _ (call_reach' hb (fun hcr => ?_) hC ht hk hc (hin t)
              ⟨fun t i ht => by rw [hin t] at ht; simp at ht, fun x e hx => by rw [hap x] at hx; simp at hx⟩) rfl rfl rfl
            exfalso
            have hcov := hC t f g k ht hk
            rw [hc] at hcov
            obtain ⟨_, cont, hrun⟩ := hcov
            have e := (hrun s.fine.cfg.shared.world).1
            rw [invoke_fine, hcr] at e
            have h5 := h4 (code.obj c.target)
            have h6 := hle (code.obj c.target)
            have h7 := h1 c s.fine.cfg.shared.world.user
            have e2 : (g s.fine.cfg.shared.world).user = (c.answer env s.fine.cfg.shared.world.user).2 := by
              rw [e]; simp only [Bool.false_eq_true, if_false]; split <;> cases c <;> rfl
            have h5' : m ((g s.fine.cfg.shared.world).user (code.obj c.target)) ≤ m (s0.fine.cfg.shared.world.user (code.obj c.target)) := h5
            rw [e2] at h5'
            omega
          | none =>
            refine viaFine _ (Fine.Reach.one (.outer s.fine (.effect t f.ev) _
              (.commit s.fine.cfg t f g k ht hk) (fun u _ => hin u) (fun _ _ e => by simp at e) ?_)) rfl rfl rfl
            intro u ev f' e hf'
            simp only [Label.effect.injEq] at e
            obtain ⟨rfl, _⟩ := e
            have : s.fine.cfg.flights t = some f := ht
            rw [this] at hf'; cases hf'; exact hc
        | connect | iterate | add | remove | request | grant | unlock | getUsed | getAvail | putUsed | putAvail | send
        | finish | abandon | cancel => exact absurd hl id
    · exact ⟨_, hs.tail (.socket s lb a' st (fun l e ho => hl ⟨l, e, ho⟩) (fun l t _ _ => hin t)), rfl, hin, hap, hend rfl⟩

/-! ### A client that has sent an import and a submit, and has hung up, before it is accepted -/

namespace Samples

def bothRequests : Bytes := wireCmd (.reqImport 0 busA) ++ wireCmd askHandler

/-- The server when the client is accepted. -/
def arrived (code : Code Nat) : Whole code where
  fine := { cfg := { Cfg.init [devA] adderWorld with conns := setConn (fun _ => none) 0 (Conn.new ⟨[], .unexpectedEof⟩) }
            inside := fun _ => none
            app := fun _ => none }
  buf := upd (fun _ => []) 0 bothRequests
  ended := upd (fun _ => none) 0 (some .unexpectedEof)
  got := fun _ => []

/-- The calls of `server` and the clients then. -/
def callsThen : Nat → Option Serving := upd (upd (upd (fun _ => none) 0 (some (.listening []))) 0 (some (.listening [0]))) 0 (some (.listening []))
def frontThen : Nat → Dialled :=
  upd (upd (upd (upd (fun _ => .unknown) 0 (.waiting [] none)) 0 (.waiting bothRequests none)) 0 (.waiting bothRequests (some .unexpectedEof))) 0 .accepted

end Samples

theorem arrived_reach (code : Code Nat) : Tcp.Reach adderEnv dev (Tcp.init [devA] adderWorld)
    [.server (.outside (.connect 0 ⟨[], .unexpectedEof⟩)), .arrive 0 bothRequests, .hangup 0 .unexpectedEof] (arrived code).tcp := by
  have r1 := Tcp.Reach.tail .refl (.connect (env := adderEnv) (p := dev) (Tcp.init [devA] adderWorld) 0 rfl)
  have r2 := Tcp.Reach.tail r1 (.arrive _ 0 bothRequests (by simp [setConn]) rfl)
  exact Tcp.Reach.tail r2 (.hangup _ 0 .unexpectedEof (by simp [setConn]) rfl)

/-- The execution with what the server does then, after which nothing happens. -/
theorem one_client (code : Code Nat) (hb : Behaves code adderEnv) {S : Whole code} {ls : List (TcpLabel (HandlerId → Nat))}
    (R : Whole.Reach code adderEnv dev (arrived code) ls S)
    (hstart : ∀ t ev, .server (.start t ev) ∈ ls → ∃ wr, ev = .iterate 0 wr)
    (hcon : ∀ c i, .server (.outside (.connect c i)) ∉ ls) (hc : ∀ c, c ≠ 0 → S.fine.cfg.conns c = none) :
    ∃ (e : MachineExec code adderEnv dev (Machine.init code [devA] adderWorld)) (T : Nat), OneClient e 5 ∧ 5 ≤ T ∧
      e.state 4 = { Machine.init code [devA] adderWorld with
        calls := upd (upd (fun _ => none) 0 (some (.listening []))) 0 (some (.listening [0]))
        front := upd (upd (upd (fun _ => .unknown) 0 (.waiting [] none)) 0 (.waiting bothRequests none)) 0
          (.waiting bothRequests (some .unexpectedEof)) } ∧
      (∀ m, T ≤ m → e.state m = { whole := S, calls := callsThen, front := frontThen } ∧ e.label m = none) ∧
      (∀ n t ev, e.label n = some (.inner (.server (.start t ev))) → ∃ wr, ev = .iterate 0 wr) ∧
      (∀ n k, e.label n ≠ some (.dropServe k)) ∧ (e.state 5).whole = arrived code := by
  let M0 : Machine code := Machine.init code [devA] adderWorld
  let M1 : Machine code := { M0 with calls := upd M0.calls 0 (some (.listening [])) }
  let M2 : Machine code := { M1 with calls := upd M1.calls 0 (some (.listening [0])), front := upd M1.front 0 (.waiting [] none) }
  let M3 : Machine code := { M2 with front := upd M2.front 0 (.waiting bothRequests none) }
  let M4 : Machine code := { M3 with front := upd M3.front 0 (.waiting bothRequests (some .unexpectedEof)) }
  let M5 : Machine code := { whole := arrived code, calls := callsThen, front := frontThen }
  have t0 : Machine.Step code adderEnv dev M0 (some (.serve 0 true)) M1 := .serve _ 0 true rfl
  have t1 : Machine.Step code adderEnv dev M1 (some (.dial 0 0)) M2 := .dial _ 0 0 [] rfl rfl
  have t2 : Machine.Step code adderEnv dev M2 (some (.early 0 bothRequests)) M3 := by
    have := Machine.Step.early (code := code) (env := adderEnv) (p := dev) M2 0 [] bothRequests rfl
    exact this
  have t3 : Machine.Step code adderEnv dev M3 (some (.earlyEnd 0 .unexpectedEof)) M4 := .earlyEnd _ 0 _ .unexpectedEof rfl
  have t4 : Machine.Step code adderEnv dev M4 (some (.accept 0 0 bothRequests (some .unexpectedEof))) M5 := by
    have := Machine.Step.accept (code := code) (env := adderEnv) (p := dev) M4 0 0 [] bothRequests (some .unexpectedEof) rfl rfl
    exact this
  obtain ⟨N, e5, hs, hl, hlab, _⟩ := MachineExec.after (s0 := M5) R hcon (.rest code adderEnv dev { M5 with whole := S })
  let e : MachineExec code adderEnv dev M0 := ((((e5.cons t4).cons t3).cons t2).cons t1).cons t0
  have st : ∀ k, e.state (k + 5) = e5.state k := fun _ => rfl
  have lb : ∀ k, e.label (k + 5) = e5.label k := fun _ => rfl
  have late : ∀ m, 5 + N ≤ m → e.state m = { whole := S, calls := callsThen, front := frontThen } ∧ e.label m = none := by
    intro m hm
    obtain ⟨d, rfl⟩ := Nat.exists_eq_add_of_le hm
    rw [show 5 + N + d = (N + d) + 5 by omega, st, lb, hs, hl]
    exact ⟨rfl, rfl⟩
  -- what the labels are
  have labels : ∀ n l, e.label n = some l → (n < 5 ∧ ((∃ b, l = .serve 0 b) ∨ l = .dial 0 0 ∨ (∃ bs, l = .early 0 bs) ∨
      (∃ er, l = .earlyEnd 0 er) ∨ ∃ bs fin, l = .accept 0 0 bs fin)) ∨ (5 ≤ n ∧ ∃ lb ∈ ls, l = .inner lb) := by
    intro n l h
    match n with
    | 0 => cases h; exact .inl ⟨by omega, .inl ⟨_, rfl⟩⟩
    | 1 => cases h; exact .inl ⟨by omega, .inr (.inl rfl)⟩
    | 2 => cases h; exact .inl ⟨by omega, .inr (.inr (.inl ⟨_, rfl⟩))⟩
    | 3 => cases h; exact .inl ⟨by omega, .inr (.inr (.inr (.inl ⟨_, rfl⟩)))⟩
    | 4 => cases h; exact .inl ⟨by omega, .inr (.inr (.inr (.inr ⟨_, _, rfl⟩)))⟩
    | k + 5 =>
      refine .inr ⟨by omega, ?_⟩
      rw [lb] at h
      by_cases hk : k < N
      · exact hlab k hk l h
      · obtain ⟨d, rfl⟩ := Nat.exists_eq_add_of_le (Nat.not_lt.1 hk)
        rw [hl] at h; cases h
  have starts : ∀ n t ev, e.label n = some (.inner (.server (.start t ev))) → ∃ wr, ev = .iterate 0 wr := by
    intro n t ev h
    rcases labels n _ h with ⟨_, ⟨_, h⟩ | h | ⟨_, h⟩ | ⟨_, h⟩ | ⟨_, _, h⟩⟩ | ⟨_, lb, hm, h⟩
    all_goals cases h
    exact hstart t ev hm
  refine ⟨e, 5 + N, ⟨fun n k c bs fin h => ?_, fun n k h => ?_, fun n l h => ?_, starts, fun n c h => ?_⟩, by omega, rfl, late, starts, fun n k h => ?_, (congrArg Machine.whole (st 0)).trans (congrArg Machine.whole e5.init)⟩
  · rcases labels n _ h with ⟨hn, ⟨_, h⟩ | h | ⟨_, h⟩ | ⟨_, h⟩ | ⟨_, _, h⟩⟩ | ⟨_, lb, hm, h⟩
    all_goals cases h
    exact ⟨hn, rfl⟩
  · rcases labels n _ h with ⟨hn, ⟨_, h⟩ | h | ⟨_, h⟩ | ⟨_, h⟩ | ⟨_, _, h⟩⟩ | ⟨_, lb, hm, h⟩
    all_goals cases h
  · rcases labels n _ h with ⟨hn, ⟨_, h⟩ | h | ⟨_, h⟩ | ⟨_, h⟩ | ⟨_, _, h⟩⟩ | ⟨hn, lb, hm, h⟩
    all_goals cases h
    exact hn
  · refine Classical.byContradiction fun hne => ?_
    obtain ⟨e1, B⟩ := exists_within hb e
    obtain ⟨e2, C⟩ := exists_behind hb e1
    have := C.stays (n := 3 * n) (c := c) (by rw [B.state0]; exact h) (3 * max n (5 + N)) (by omega)
    rw [B.state0, (late _ (by omega)).1] at this
    exact this (hc c hne)
  · rcases labels n _ h with ⟨hn, ⟨_, h⟩ | h | ⟨_, h⟩ | ⟨_, h⟩ | ⟨_, _, h⟩⟩ | ⟨_, lb, hm, h⟩
    all_goals cases h

/-- With handler code that returns: the client is served. -/
theorem servedByOne : ∃ (e : MachineExec adder adderEnv dev (Machine.init adder [devA] adderWorld)) (on : Nat → Nat → Option Duty),
    Pool e 1 on ∧ Outside e ∧
    (∀ n t f i m k, (e.state n).whole.fine.cfg.flights t = some f → f.ev = .removeDevice i → f.code ≠ .lock .used m k) ∧
    (e.state 4).calls 0 = some (.listening [0]) ∧ (e.state 4).front 0 = .waiting bothRequests (some .unexpectedEof) ∧
    (∀ m k, e.label m ≠ some (.dropServe k)) ∧
    on 0 0 = some (.serve 0) ∧ (∃ n, on n 0 = some (.conn 0)) ∧ (∃ n, on n 0 = none) ∧
    ∃ n y, (e.state n).whole.fine.cfg.conns 0 = some y ∧ y.served.map (·.1) = [.reqImport 0 busA, askHandler] ∧ y.status = .closed := by
  have r3 := arrived_reach adder
  obtain ⟨l4, s4, r4, q4, e4, v4, n4⟩ := calm_next_only r3 ⟨_, _, rfl⟩ (.iterate 0 .full)
  obtain ⟨l5, s5, r5, q5, e5, v5, n5⟩ := calm_next_only (r3.trans r4) q4 (.iterate 0 .full)
  obtain ⟨l6, s6, r6, q6, e6, v6, n6⟩ := calm_next_only ((r3.trans r4).trans r5) q5 (.iterate 0 .full)
  rw [e5, e4] at e6
  have hn : (((((restOf (arrived adder).tcp).step adderEnv dev (.iterate 0 .full)).step adderEnv dev (.iterate 0 .full)).step
        adderEnv dev (.iterate 0 .full)).sys.conns 0).map (fun x => (x.served.map (·.1), x.current, x.status, x.input.bytes))
        = some ([Cmd.reqImport 0 busA, askHandler], none, .closed, []) := by
    decide +kernel
  rw [← e6] at hn
  obtain ⟨y, hy, hy1, hy3, hy4⟩ : ∃ y, s6.cfg.conns 0 = some y ∧ y.served.map (·.1) = [.reqImport 0 busA, askHandler] ∧
      y.status = .closed ∧ y.input.bytes ++ s6.buf 0 = [] := by
    cases hc : s6.cfg.conns 0 with
    | none => simp [restOf, hc] at hn
    | some y =>
      simp only [restOf, hc, Option.map_some, Option.some.injEq, Prod.mk.injEq] at hn
      exact ⟨y, rfl, hn.1, hn.2.2.1, hn.2.2.2⟩
  have hother : ∀ c, c ≠ 0 → s6.cfg.conns c = none := by
    intro c hc
    have : (restOf s6).sys.conns c = none := by
      rw [e6, net_iterate_other hc, net_iterate_other hc, net_iterate_other hc]
      simp [restOf, arrived, Whole.tcp, setConn, hc]
    cases h : s6.cfg.conns c with
    | none => rfl
    | some x => simp [restOf, h] at this
  have hfl6 : ∀ t, s6.cfg.flights t = none := by
    obtain ⟨sh, conns, h⟩ := q6
    intro t; rw [h]; rfl
  have hv : ∀ lb ∈ l4 ++ l5 ++ l6, ∀ ev', tcpEvent lb = some ev' → ev' = .iterate 0 .full := by
    intro lb hm
    simp only [List.mem_append] at hm
    rcases hm with (hm | hm) | hm
    · exact v4 lb hm
    · exact v5 lb hm
    · exact v6 lb hm
  have hst : ∀ t ev, TcpLabel.server (.start t ev) ∈ l4 ++ l5 ++ l6 → ∃ wr, ev = .iterate 0 wr := by
    intro t ev hm
    simp only [List.mem_append] at hm
    have : live ev = .iterate 0 .full := by
      rcases hm with (hm | hm) | hm
      · exact n4 t ev hm
      · exact n5 t ev hm
      · exact n6 t ev hm
    cases ev <;> simp only [live, NetEvent.iterate.injEq, reduceCtorEq] at this
    obtain ⟨rfl, rfl⟩ := this
    exact ⟨_, rfl⟩
  obtain ⟨S, R6, hS, hin, hap⟩ := lift_from (code := adder) adder_behaves adder_returns r3 (fun _ => rfl) (fun _ => rfl)
    ((r4.trans r5).trans r6) (fun f cr hf => by cases hv _ hf _ rfl)
  subst hS
  obtain ⟨e, T, U, hT, h4, hlate, hstarts, hdrop, h5⟩ := one_client adder adder_behaves R6 hst (fun c i hm => by cases hv _ hm _ rfl) hother
  have hconn : ∀ c x, S.fine.cfg.conns c = some x → S.buf c = [] ∧ x.status ≠ .running := by
    intro c x hx
    by_cases h : c = 0
    · subst h
      have : some x = some y := hx.symm.trans hy
      cases this
      exact ⟨(List.append_eq_nil_iff.1 hy4).2, by rw [hy3]; simp⟩
    · have := hother c h
      rw [show S.tcp.cfg.conns c = S.fine.cfg.conns c from rfl, hx] at this; cases this
  obtain ⟨P, O⟩ := U.rests adder_behaves hT hlate hfl6 hap (fun c x hx => (hconn c x hx).1) (fun c x hx => (hconn c x hx).2)
    (fun k c q h => by
      by_cases hk : k = 0
      · subst hk; cases h
      · simp [callsThen, upd_ne _ _ hk] at h)
  refine ⟨e, _, P, O, ?_, by rw [h4]; rfl, by rw [h4]; rfl, fun m k h => ?_, ?_, ⟨5, ?_⟩, ⟨T, ?_⟩, T, y, by rw [(hlate T (Nat.le_refl _)).1]; exact hy, hy1, hy3⟩
  · exact no_removals adder_behaves e (fun n t i h => by obtain ⟨wr, h⟩ := hstarts n t _ h; cases h)
  · exact hdrop m k h
  · exact if_pos ⟨rfl, by omega⟩
  · have : T ≠ 5 := by
      rintro rfl
      rw [(hlate 5 (Nat.le_refl _)).1] at h5
      have hy' := hy
      dsimp only at h5
      rw [h5] at hy'
      cases hy'
      cases hy3
    exact if_pos ⟨rfl, by omega⟩
  · exact if_neg (by omega)

theorem sleeper_behaves : Behaves sleeper adderEnv := fun c u l v r h hr => by simp [sleeper] at hr

/-- With handler code that never returns: the only worker thread stays in it. -/
theorem stuckWithOne : ∃ (e : MachineExec sleeper adderEnv dev (Machine.init sleeper [devA] adderWorld)) (on : Nat → Nat → Option Duty) (n : Nat),
    Pool e 1 on ∧ (∀ m, n ≤ m → (e.state m).whole.fine.inside 0 ≠ none) ∧
    (∃ x, (e.state n).whole.fine.cfg.conns 0 = some x ∧ x.status = .running ∧ x.served.map (·.1) = [.reqImport 0 busA]) ∧
    on 0 0 = some (.serve 0) ∧ on n 0 = some (.conn 0) := by
  have r3 := arrived_reach sleeper
  obtain ⟨l4, s4, r4, q4, e4, v4, n4⟩ := calm_next_only r3 ⟨_, _, rfl⟩ (.iterate 0 .full)
  generalize hN : (restOf (arrived sleeper).tcp).step adderEnv dev (.iterate 0 .full) = N at e4
  have f0 : (N.sys.conns 0).map (fun x => (x.status, (x.call dev N.sys.shared.used).map HCall.target, x.served.map (·.1)))
      = some (.running, some (.iface 0), [.reqImport 0 busA]) := by subst hN; decide +kernel
  have fc : crashed N.sys.shared.world (.iface 0) = false := by subst hN; decide +kernel
  have fw : N.sys.shared.world.user = fun _ => 0 := by subst hN; rfl
  have fo : ∀ c, c ≠ 0 → N.sys.conns c = none := by
    intro c hc
    rw [← hN, net_iterate_other hc]
    simp [restOf, arrived, Whole.tcp, setConn, hc]
  subst e4
  obtain ⟨sh, conns, hs4⟩ := q4
  have hfl : ∀ t, s4.cfg.flights t = none := fun t => by rw [hs4]; rfl
  have hq : ∀ l, s4.cfg.queue l = [] := fun t => by rw [hs4]; rfl
  have hother : ∀ c, c ≠ 0 → s4.cfg.conns c = none := by
    intro c hc
    have := fo c hc
    cases h : s4.cfg.conns c with
    | none => rfl
    | some x => simp [restOf, h] at this
  obtain ⟨x0, h0, r0, k0, c0, t0, v0⟩ : ∃ x0, s4.cfg.conns 0 = some x0 ∧ x0.status = .running ∧ ∃ k0,
      Conn.call dev { x0 with input := ⟨x0.input.bytes ++ s4.buf 0, x0.input.fin⟩ } s4.cfg.shared.used = some k0 ∧ k0.target = .iface 0 ∧
      x0.served.map (·.1) = [.reqImport 0 busA] := by
    cases h : s4.cfg.conns 0 with
    | none => simp [restOf, h] at f0
    | some x =>
      simp only [restOf, h, Option.map_some, Option.some.injEq, Prod.mk.injEq, Option.map_eq_some_iff] at f0
      obtain ⟨g1, ⟨k, g2, g3⟩, g4⟩ := f0
      refine ⟨x, rfl, g1, k, ?_, g3, g4⟩
      rw [← g2]
      exact (call_fin dev { x with input := ⟨x.input.bytes ++ s4.buf 0, x.input.fin⟩ } _ _).symm
  have idle : s4.cfg.idle 0 := fun t f h => by rw [hfl t] at h; simp at h
  have r5 := r4.tail (.take _ 0 x0 (s4.buf 0) [] h0 idle (by simp))
  have hv : ∀ lb ∈ l4 ++ [.take 0], ∀ ev', tcpEvent lb = some ev' → ev' = .iterate 0 .full := by
    intro lb hm ev' h
    rcases List.mem_append.1 hm with hm | hm
    · exact v4 lb hm ev' h
    · simp only [List.mem_singleton] at hm
      subst hm; cases h
  have up : ∀ c u, id (u (sleeper.obj (HCall.target c))) < id ((HCall.answer adderEnv u c).2 (sleeper.obj c.target)) := fun c u => by
    cases c <;> simp [HCall.answer, HCall.target, adderEnv, upd, sleeper]
  have keeps : ∀ c u (o : HandlerId), id (u o) ≤ id ((HCall.answer adderEnv u c).2 o) := fun c u o => by
    cases c with
    | iface h => by_cases e : o = .iface h <;> simp [HCall.answer, adderEnv, upd, e]
    | dev h => by_cases e : o = .dev h <;> simp [HCall.answer, adderEnv, upd, e]
  obtain ⟨S, R5, hS, hin, hap, _⟩ := lift_calm sleeper_behaves r3 (fun _ => rfl) (fun _ => rfl) r5 id up keeps (fun o => by
      show s4.cfg.shared.world.user o ≤ 0
      have : s4.cfg.shared.world.user = fun _ => 0 := fw
      rw [this]) (fun f cr hf => by cases hv _ hf _ rfl)
  have R3 : ∃ l, Whole.Reach sleeper adderEnv dev (Whole.init sleeper [devA] adderWorld) l (arrived sleeper) := by
    obtain ⟨S3, R3, hS3, hin3, hap3, _⟩ := lift_calm (s0 := Whole.init sleeper [devA] adderWorld) sleeper_behaves
      .refl (fun _ => rfl) (fun _ => rfl) r3 id up keeps (fun o => Nat.le_refl _) (fun f cr hf => by simp at hf)
    have : S3 = arrived sleeper := by
      obtain ⟨⟨cfg, inside, app⟩, sbuf, sended, sgot⟩ := S3
      have e1 : inside = fun _ => none := funext hin3
      have e2 : app = fun _ => none := funext hap3
      subst e1; subst e2
      simp only [Whole.tcp, arrived, Tcp.mk.injEq] at hS3
      obtain ⟨rfl, rfl, rfl, rfl⟩ := hS3
      rfl
    exact ⟨_, this ▸ R3⟩
  obtain ⟨l0, R3⟩ := R3
  have hScfg : S.fine.cfg = { s4.cfg with conns := setConn s4.cfg.conns 0 { x0 with input := ⟨x0.input.bytes ++ s4.buf 0, x0.input.fin⟩ } } :=
    congrArg Tcp.cfg hS
  have hSc : S.fine.cfg.conns 0 = some { x0 with input := ⟨x0.input.bytes ++ s4.buf 0, x0.input.fin⟩ } := by
    rw [hScfg]; simp [setConn]
  have hSfl : ∀ t, S.fine.cfg.flights t = none := fun t => by rw [hScfg]; exact hfl t
  obtain ⟨l6, f6, i, R6, hi6, ho6, hh6, hl6⟩ := enter_labels sleeper adderEnv sleeper_behaves dev [devA] adderWorld _ _ (R3.trans R5) 0 0
    _ k0 (hSfl 0) hSc r0 (fun t f h => by rw [hSfl t] at h; simp at h) (by rw [hScfg]; exact hq _)
    (fun t f h => by rw [hSfl t] at h; simp at h) (by rw [hScfg]; exact c0)
    ⟨fun t i h => by rw [hin t] at h; simp at h, fun a e h => by rw [hap a] at h; simp at h⟩ (by rw [t0, hScfg]; exact fc)
  have hst : ∀ t ev, TcpLabel.server (.start t ev) ∈ (l4 ++ [.take 0]) ++ l6 → ∃ wr, ev = .iterate 0 wr := by
    intro t ev hm
    subst hl6
    simp only [List.mem_append, List.mem_cons, TcpLabel.server.injEq, Label.start.injEq, reduceCtorEq, List.not_mem_nil, or_false, false_or] at hm
    rcases hm with hm | ⟨_, rfl⟩
    · have : live ev = .iterate 0 .full := n4 t ev hm
      cases ev <;> simp only [live, NetEvent.iterate.injEq, reduceCtorEq] at this
      obtain ⟨rfl, rfl⟩ := this
      exact ⟨_, rfl⟩
    · exact ⟨_, rfl⟩
  obtain ⟨e, T, U, hT, h4, hlate, hstarts, hdrop, h5⟩ := one_client sleeper sleeper_behaves (R5.trans R6) hst
    (fun c i hm => by
      subst hl6
      rcases List.mem_append.1 hm with hm | hm
      · cases hv _ hm _ rfl
      · simp at hm)
    (fun c hc => by
      show S.fine.cfg.conns c = none
      rw [hScfg]
      simp only [setConn, if_neg hc]
      exact hother c hc)
  have P := U.sleeps sleeper_behaves hT hlate (t := 0) (i := i) (by simp [upd]) rfl (fun _ => rfl)
  refine ⟨e, _, T, P, fun m hm => by rw [(hlate m hm).1]; simp [upd], ⟨{ x0 with input := ⟨x0.input.bytes ++ s4.buf 0, x0.input.fin⟩ }, by rw [(hlate T (Nat.le_refl _)).1]; exact hSc, r0, v0⟩, rfl, ?_⟩
  exact congrArg some (if_neg (by omega))

end Usbip
