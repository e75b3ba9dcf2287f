import Verif.Props.Locks
import Verif.Props.Freeze
/-! Helper lemmas: an import and a removal that wait for each other (C107). -/

namespace Usbip
open Spec

/-- A call of `add_device` or `remove_device`. -/
def Event.isCall {σ} : Event σ → Bool
  | .addDevice _ => true
  | .removeDevice _ => true
  | _ => false

/-- Replies are sent with the table of used devices locked; the effect of a call takes place with the table of available
devices locked. -/
def Task.Keeps {σ} (call : Bool) : Task σ → (held : Lk → Option Mode) → Prop
  | .done _, _ => True
  | .lock l m k, held => k.Keeps call (upd held l (some m))
  | .unlock l k, held => k.Keeps call (upd held l none)
  | .getUsed k, held => ∀ v, (k v).Keeps call held
  | .getAvail k, held => ∀ v, (k v).Keeps call held
  | .putUsed _ k, held => k.Keeps call held
  | .putAvail _ k, held => k.Keeps call held
  | .commit _ k, held => (call = true → held .avail ≠ none) ∧ ∀ w, (k w).Keeps call held
  | .send k, held => held .used ≠ none ∧ k.Keeps call held

theorem iterTask_Keeps {σ} (env : Env σ) (p : Profile) (x : Conn) (w : WriteRes) :
    (iterTask env p x w).Keeps false (fun _ => none) := by
  unfold iterTask
  split <;>
    (try simp only [devlistTask, importTask, submitTask, unlinkTask, releaseTask]) <;>
    repeat' (first
      | rfl
      | trivial
      | refine ⟨?_, ?_⟩
      | (simp [upd]; done)
      | intro _
      | (split <;> simp only [Task.Keeps])
      | simp only [Task.Keeps])

theorem addTask_Keeps {σ} (d : Device) : (addTask d : Task σ).Keeps true (fun _ => none) := by
  simp [addTask, Task.Keeps, upd]

theorem removeTask_Keeps {σ} (i : Bytes) : (removeTask i : Task σ).Keeps true (fun _ => none) := by
  simp only [removeTask, Task.Keeps]
  intro a
  split <;> simp [Task.Keeps, upd]

theorem keeps_step {σ} {env : Env σ} {p : Profile} {s s' : Cfg σ} {lb : Label σ} (st : Cfg.Step env p s lb s')
    (h : ∀ t f, s.flights t = some f → f.code.Keeps f.ev.isCall f.held) : ∀ t f, s'.flights t = some f → f.code.Keeps f.ev.isCall f.held := by
  have put : ∀ (t : Nat) (o : Option (Flight σ)), (∀ f, o = some f → f.code.Keeps f.ev.isCall f.held) →
      ∀ u g, upd s.flights t o u = some g → g.code.Keeps g.ev.isCall g.held := by
    intro t o ho u g hu
    by_cases e : u = t
    · subst e; rw [upd_self] at hu; exact ho g hu
    · rw [upd_ne _ _ e] at hu; exact h u g hu
  cases st with
  | connect c input hc => exact h
  | user f crash => exact h
  | cancel c x hc hr hi => exact h
  | iterate t c w x ht hc hr hi => exact put t _ fun f hf => by cases hf; exact iterTask_Keeps env p x w
  | add t d ht => exact put t _ fun f hf => by cases hf; exact addTask_Keeps d
  | remove t i ht => exact put t _ fun f hf => by cases hf; exact removeTask_Keeps i
  | request t f l md k ht hk hw => exact put t _ fun g hg => by cases hg; exact h t f ht
  | grant t f l md k q ht hk hw hq hc =>
    have := h t f ht; rw [hk] at this
    exact put t _ fun g hg => by cases hg; exact this
  | unlock t f l k ht hk =>
    have := h t f ht; rw [hk] at this
    exact put t _ fun g hg => by cases hg; exact this
  | getUsed t f k ht hk =>
    have := h t f ht; rw [hk] at this
    exact put t _ fun g hg => by cases hg; exact this _
  | getAvail t f k ht hk =>
    have := h t f ht; rw [hk] at this
    exact put t _ fun g hg => by cases hg; exact this _
  | putUsed t f v k ht hk =>
    have := h t f ht; rw [hk] at this
    exact put t _ fun g hg => by cases hg; exact this
  | putAvail t f v k ht hk =>
    have := h t f ht; rw [hk] at this
    exact put t _ fun g hg => by cases hg; exact this
  | commit t f g k ht hk =>
    have := h t f ht; rw [hk] at this
    exact put t _ fun g hg => by cases hg; exact this.2 _
  | send t f k ht hk =>
    have := h t f ht; rw [hk] at this
    exact put t _ fun g hg => by cases hg; exact this.2
  | finish t f x ht hk => exact put t _ fun g hg => by cases hg
  | abandon t f ht hc => exact put t _ fun g hg => by cases hg

theorem keeps_reach {σ} {env : Env σ} {p : Profile} {devices : List Device} {w : World σ} {ls : List (Label σ)} {s : Cfg σ}
    (h : Cfg.Reach env p (Cfg.init devices w) ls s) : ∀ t f, s.flights t = some f → f.code.Keeps f.ev.isCall f.held := by
  induction h with
  | refl => intro t f hf; simp [Cfg.init] at hf
  | tail _ st ih => exact keeps_step st ih

/-- Who sends a reply has the table of used devices locked. -/
theorem TInv.sends_locked {σ} {env : Env σ} {p : Profile} {devices : List Device} {w : World σ} {ls : List (TcpLabel σ)}
    {s : Tcp σ} (h : TInv env p devices w ls s) {t : Nat} {f : Flight σ} {k : Task σ}
    (hf : s.cfg.flights t = some f) (hk : f.code = .send k) : f.held .used ≠ none := by
  obtain ⟨ls', hr, _, _⟩ := h.fore _ (someFuture_possible s)
  have := keeps_reach hr t _ (hearing_flight hf)
  simp only [hk] at this
  cases ho : f.owner with
  | none => rw [ho] at this; exact this.1
  | some c => rw [ho] at this; exact this.1

/-- A call that has its effect has the table of available devices locked. -/
theorem TInv.calls_locked {σ} {env : Env σ} {p : Profile} {devices : List Device} {w : World σ} {ls : List (TcpLabel σ)}
    {s : Tcp σ} (h : TInv env p devices w ls s) {t : Nat} {f : Flight σ} {g k} (hf : s.cfg.flights t = some f)
    (hk : f.code = .commit g k) (hc : f.ev.isCall = true) : f.held .avail ≠ none := by
  obtain ⟨ls', hr, _, _⟩ := h.fore _ (someFuture_possible s)
  have := keeps_reach hr t _ (hearing_flight hf)
  simp only [hk] at this
  cases ho : f.owner with
  | none => rw [ho] at this; exact this.1 hc
  | some c => rw [ho] at this; exact this.1 hc

theorem TInv.excl {σ} {env : Env σ} {p : Profile} {devices : List Device} {w : World σ} {ls : List (TcpLabel σ)}
    {s : Tcp σ} (h : TInv env p devices w ls s) {t u : Nat} {f g : Flight σ} {l : Lk} (hne : t ≠ u)
    (hf : s.cfg.flights t = some f) (hg : s.cfg.flights u = some g) (hw : g.held l = some .w) : f.held l = none := by
  obtain ⟨ls', hr, _, _⟩ := h.fore _ (someFuture_possible s)
  cases hm : f.held l with
  | none => rfl
  | some m =>
    have := (CInv.reach hr).excl t u _ _ l m .w hne (hearing_flight hf) (hearing_flight hg) hm hw
    rw [compatible_w] at this; cases this

/-- A program that asks for a lock that another one holds for writing does not get it. -/
theorem kept_out {σ} {env : Env σ} {p : Profile} {a b : Cfg σ} {lb : Label σ} (st : Cfg.Step env p a lb b) {t u : Nat}
    {f g : Flight σ} {l : Lk} {m : Mode} {k : Task σ} (hf : a.flights t = some f) (hk : f.code = .lock l m k)
    (hg : a.flights u = some g) (hw : g.held l = some .w) (hd : ∀ o, lb ≠ .dropped t o) :
    ∃ b', b.flights t = some { f with waiting := b' } := by
  by_cases hp : prog lb = some t
  · cases st with
    | connect c input hc => cases hp
    | user f crash => cases hp
    | cancel c x hc hr hi => cases hp
    | iterate t' c w x ht hc hr hi => cases hp; rw [hf] at ht; cases ht
    | add t' d ht => cases hp; rw [hf] at ht; cases ht
    | remove t' i ht => cases hp; rw [hf] at ht; cases ht
    | request t' f' l' md k' ht hk' hw' =>
      cases hp; rw [hf] at ht; cases ht
      exact ⟨true, upd_self _ _ _⟩
    | grant t' f' l' md k' q ht hk' hw' hq hc =>
      cases hp; rw [hf] at ht; cases ht
      rw [hk] at hk'; cases hk'
      have := hc u g .w hg hw
      rw [compatible_w] at this; cases this
    | abandon t' f' ht hc => cases hp; exact absurd rfl (hd f'.owner)
    | unlock t' f' l' k' ht hk' => cases hp; rw [hf] at ht; cases ht; rw [hk] at hk'; cases hk'
    | getUsed t' f' k' ht hk' => cases hp; rw [hf] at ht; cases ht; rw [hk] at hk'; cases hk'
    | getAvail t' f' k' ht hk' => cases hp; rw [hf] at ht; cases ht; rw [hk] at hk'; cases hk'
    | putUsed t' f' v k' ht hk' => cases hp; rw [hf] at ht; cases ht; rw [hk] at hk'; cases hk'
    | putAvail t' f' v k' ht hk' => cases hp; rw [hf] at ht; cases ht; rw [hk] at hk'; cases hk'
    | commit t' f' g' k' ht hk' => cases hp; rw [hf] at ht; cases ht; rw [hk] at hk'; cases hk'
    | send t' f' k' ht hk' => cases hp; rw [hf] at ht; cases ht; rw [hk] at hk'; cases hk'
    | finish t' f' x ht hk' => cases hp; rw [hf] at ht; cases ht; rw [hk] at hk'; cases hk'
  · exact ⟨f.waiting, (flights_other st hp).trans hf⟩

theorem tcp_kept_out {σ} {env : Env σ} {p : Profile} {s s' : Tcp σ} {lb : TcpLabel σ} (st : Tcp.Step env p s lb s') {t u : Nat}
    {f g : Flight σ} {l : Lk} {m : Mode} {k : Task σ} (hf : s.cfg.flights t = some f) (hk : f.code = .lock l m k)
    (hg : s.cfg.flights u = some g) (hw : g.held l = some .w) (hd : ∀ o, lb ≠ .server (.dropped t o)) :
    ∃ b, s'.cfg.flights t = some { f with waiting := b } := by
  have h := tcp_flightStep st
  cases hs : serverStep lb with
  | none =>
    rw [hs] at h
    exact ⟨f.waiting, by rw [h.1]; exact hf⟩
  | some lb' =>
    rw [hs] at h
    obtain ⟨a, b, st', ha, _, hb, _⟩ := h
    rw [← ha] at hf hg
    rw [← hb]
    refine kept_out st' hf hk hg hw fun o e => ?_
    subst e
    cases lb with
    | server l => cases hs; exact hd o rfl
    | _ => cases hs

theorem tables_step {σ} {env : Env σ} {p : Profile} {a b : Cfg σ} {lb : Label σ} (st : Cfg.Step env p a lb b) :
    (b.shared.used = a.shared.used ∨ ∃ t f v k, a.flights t = some f ∧ f.code = .putUsed v k) ∧
    (b.shared.available = a.shared.available ∨ ∃ t f v k, a.flights t = some f ∧ f.code = .putAvail v k) := by
  cases st with
  | putUsed t f v k ht hk => exact ⟨.inr ⟨t, f, v, k, ht, hk⟩, .inl rfl⟩
  | putAvail t f v k ht hk => exact ⟨.inl rfl, .inr ⟨t, f, v, k, ht, hk⟩⟩
  | _ => exact ⟨.inl rfl, .inl rfl⟩

theorem tcp_tables_step {σ} {env : Env σ} {p : Profile} {s s' : Tcp σ} {lb : TcpLabel σ} (st : Tcp.Step env p s lb s') :
    (s'.cfg.shared.used = s.cfg.shared.used ∨ ∃ t f v k, s.cfg.flights t = some f ∧ f.code = .putUsed v k) ∧
    (s'.cfg.shared.available = s.cfg.shared.available ∨
      ∃ t f v k, s.cfg.flights t = some f ∧ f.code = .putAvail v k) := by
  cases st with
  | other lb a st h1 h2 h3 => exact tables_step st
  | _ => exact ⟨.inl rfl, .inl rfl⟩

theorem tcp_effect_step {σ} {env : Env σ} {p : Profile} {s s' : Tcp σ} {t : Nat} {ev : Event σ}
    (st : Tcp.Step env p s (.server (.effect t ev)) s') :
    ∃ f g k, s.cfg.flights t = some f ∧ f.code = .commit g k ∧ f.ev = ev := by
  cases st with
  | other _ a st h1 h2 h3 =>
    cases st with
    | commit t f g k ht hk => exact ⟨f, g, k, ht, hk, rfl⟩

/-- Who writes a table has it locked for writing. -/
theorem TInv.puts_locked {σ} {env : Env σ} {p : Profile} {devices : List Device} {w : World σ} {ls : List (TcpLabel σ)}
    {s : Tcp σ} (h : TInv env p devices w ls s) {t : Nat} {f : Flight σ} (hf : s.cfg.flights t = some f) :
    (∀ v k, f.code = .putUsed v k → f.held .used = some .w) ∧ ∀ v k, f.code = .putAvail v k → f.held .avail = some .w := by
  obtain ⟨ls', hr, _, _⟩ := h.fore _ (someFuture_possible s)
  obtain ⟨d, hwl, _⟩ := ((CInv.reach hr).fl t _ (hearing_flight hf)).prog
  constructor <;> intro v k hk <;> simp only [hk] at hwl <;> cases ho : f.owner <;> rw [ho] at hwl <;> exact hwl.2.1

/-- Program `t` has the table of used devices for writing and asks for the available ones, `v` the other way round. -/
structure Crossed {σ} (t v : Nat) (f g : Flight σ) (s : Tcp σ) : Prop where
  left : ∃ b, s.cfg.flights t = some { f with waiting := b }
  right : ∃ b, s.cfg.flights v = some { g with waiting := b }

theorem Crossed.step {σ} {env : Env σ} {p : Profile} {devices : List Device} {w : World σ} {ls : List (TcpLabel σ)} {s s' : Tcp σ}
    {lb : TcpLabel σ} (hT : TInv env p devices w ls s) (st : Tcp.Step env p s lb s') {t v : Nat} {f g : Flight σ}
    {m m' : Mode} {k k' : Task σ} (h : Crossed t v f g s) (hf : f.code = .lock .avail m k) (hfu : f.held .used = some .w)
    (hg : g.code = .lock .used m' k') (hga : g.held .avail = some .w)
    (hd : ∀ o, lb ≠ .server (.dropped t o) ∧ lb ≠ .server (.dropped v o)) :
    Crossed t v f g s' ∧ s'.got = s.got ∧ s'.cfg.shared.used = s.cfg.shared.used ∧
      s'.cfg.shared.available = s.cfg.shared.available ∧
      ∀ q ev, lb = .server (.effect q ev) → ev.isCall = false := by
  obtain ⟨b, hb⟩ := h.left
  obtain ⟨b', hb'⟩ := h.right
  have hl := tcp_kept_out st hb hf hb' hga fun o => (hd o).1
  have hr := tcp_kept_out st hb' hg hb hfu fun o => (hd o).2
  refine ⟨⟨hl, hr⟩, ?_, ?_, ?_, ?_⟩
  · funext c
    rcases got_step st c with ⟨h, _⟩ | ⟨x, fx, kx, y, bs, _, hx, _, hkx, _⟩
    · exact h
    · have hne : x ≠ t := by
        rintro rfl
        rw [hb] at hx; cases hx
        rw [hf] at hkx; cases hkx
      exact absurd (hT.excl hne hx hb hfu) (hT.sends_locked hx hkx)
  · rcases (tcp_tables_step st).1 with h | ⟨x, fx, vx, kx, hx, hkx⟩
    · exact h
    · have hne : x ≠ t := by
        rintro rfl
        rw [hb] at hx; cases hx
        rw [hf] at hkx; cases hkx
      have := hT.excl hne hx hb hfu
      rw [(hT.puts_locked hx).1 _ _ hkx] at this; cases this
  · rcases (tcp_tables_step st).2 with h | ⟨x, fx, vx, kx, hx, hkx⟩
    · exact h
    · have hne : x ≠ v := by
        rintro rfl
        rw [hb'] at hx; cases hx
        rw [hg] at hkx; cases hkx
      have := hT.excl hne hx hb' hga
      rw [(hT.puts_locked hx).2 _ _ hkx] at this; cases this
  · rintro q ev rfl
    obtain ⟨r, gr, kr, hq, hkr, rfl⟩ := tcp_effect_step st
    have hne : q ≠ v := by
      rintro rfl
      rw [hb'] at hq; cases hq
      rw [hg] at hkr; cases hkr
    cases hc : r.ev.isCall with
    | false => rfl
    | true => exact absurd (hT.excl hne hq hb' hga) (hT.calls_locked hq hkr hc)

/-- While an import and a removal wait for each other, nothing is sent and the tables stay. -/
theorem whole_crossed {τ} {code : Code τ} {env : Env (HandlerId → τ)} (hb : Behaves code env) {p : Profile}
    {devices : List Device} {w : World (HandlerId → τ)} {ls0 ls : List (TcpLabel (HandlerId → τ))} {s s' : Whole code}
    (h0 : Whole.Reach code env p (Whole.init code devices w) ls0 s) {t v : Nat} {f g : Flight (HandlerId → τ)} {m m' : Mode}
    {k k' : Task (HandlerId → τ)} (hf : s.fine.cfg.flights t = some f) (hfc : f.code = .lock .avail m k)
    (hfu : f.held .used = some .w) (hg : s.fine.cfg.flights v = some g) (hgc : g.code = .lock .used m' k')
    (hga : g.held .avail = some .w) (h : Whole.Reach code env p s ls s')
    (hd : ∀ o, .server (.dropped t o) ∉ ls ∧ .server (.dropped v o) ∉ ls) :
    (∃ b, s'.fine.cfg.flights t = some { f with waiting := b }) ∧
    (∃ b, s'.fine.cfg.flights v = some { g with waiting := b }) ∧
    s'.got = s.got ∧ s'.fine.cfg.shared.used = s.fine.cfg.shared.used ∧
    s'.fine.cfg.shared.available = s.fine.cfg.shared.available ∧
    (∀ q r l, s'.fine.cfg.flights q = some r → r.held l ≠ none → q = t ∨ q = v) ∧
    ∀ q ev, .server (.effect q ev) ∈ ls → ev.isCall = false := by
  have main : Crossed t v f g s'.tcp ∧ s'.got = s.got ∧ s'.fine.cfg.shared.used = s.fine.cfg.shared.used ∧
      s'.fine.cfg.shared.available = s.fine.cfg.shared.available ∧
      ∀ q ev, .server (.effect q ev) ∈ ls → ev.isCall = false := by
    induction h with
    | refl => exact ⟨⟨⟨f.waiting, hf⟩, ⟨g.waiting, hg⟩⟩, rfl, rfl, rfl, fun _ _ h => by cases h⟩
    | @tail ls s1 lb s2 h1 st ih =>
      obtain ⟨hX, i1, i2, i3, i4⟩ := ih fun o => ⟨fun e => (hd o).1 (by simp [e]), fun e => (hd o).2 (by simp [e])⟩
      obtain ⟨hI, w1, hA, hr⟩ := whole_reach hb (h0.trans h1)
      have hC : Covered env p s1.fine.cfg := fun t f g k ht hk => tcp_covered hr t f g k ht hk
      obtain ⟨_, w2, _, hst⟩ := whole_step hb hC hI st hA
      cases lb with
      | none =>
        have hst : s2.tcp.withWorld w2 = s1.tcp.withWorld w1 := hst
        have e1 : s2.fine.cfg.flights = s1.fine.cfg.flights := congrArg (fun a => a.cfg.flights) hst
        have e2 : s2.fine.cfg.shared.used = s1.fine.cfg.shared.used := congrArg (fun a => a.cfg.shared.used) hst
        have e3 : s2.fine.cfg.shared.available = s1.fine.cfg.shared.available :=
          congrArg (fun a => a.cfg.shared.available) hst
        have e4 : s2.got = s1.got := congrArg (fun a => a.got) hst
        refine ⟨⟨?_, ?_⟩, e4.trans i1, e2.trans i2, e3.trans i3, fun q ev h => i4 q ev (by simpa using h)⟩
        · show ∃ b, s2.fine.cfg.flights t = _
          rw [e1]; exact hX.left
        · show ∃ b, s2.fine.cfg.flights v = _
          rw [e1]; exact hX.right
      | some lb =>
        have hst : Tcp.Step env p (s1.tcp.withWorld w1) lb (s2.tcp.withWorld w2) := hst
        obtain ⟨⟨a1, a2⟩, a3, a4, a5, a6⟩ := Crossed.step (TInv.reach hr) hst (t := t) (v := v) (f := f) (g := g)
          ⟨hX.left, hX.right⟩ hfc hfu hgc hga
          fun o => ⟨fun e => (hd o).1 (by simp [e]), fun e => (hd o).2 (by simp [e])⟩
        refine ⟨⟨a1, a2⟩, Eq.trans a3 i1, Eq.trans a4 i2, Eq.trans a5 i3, fun q ev h => ?_⟩
        rcases List.mem_append.1 h with h | h
        · exact i4 q ev h
        · exact a6 q ev (List.mem_singleton.1 h).symm
  obtain ⟨⟨⟨b, h1⟩, ⟨b', h2⟩⟩, h3, h4, h5, h6⟩ := main
  refine ⟨⟨b, h1⟩, ⟨b', h2⟩, h3, h4, h5, fun q r l hq hl => ?_, h6⟩
  obtain ⟨_, w1, _, hr⟩ := whole_reach hb (h0.trans h)
  refine Classical.byContradiction fun hn => hl ?_
  obtain ⟨n1, n2⟩ := not_or.1 hn
  cases l with
  | used => exact (TInv.reach hr).excl n1 hq h1 hfu
  | avail => exact (TInv.reach hr).excl n2 hq h2 hga

end Usbip
