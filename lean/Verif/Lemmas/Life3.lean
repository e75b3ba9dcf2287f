import Verif.Lemmas.Life2
import Verif.Props.Whole
/-! Helper lemmas: the life of a handler object in a whole process. -/

namespace Usbip
open Spec

section
variable {τ : Type} {code : Code τ} {env : Env (HandlerId → τ)} {p : Profile} {devices : List Device}
  {w : World (HandlerId → τ)}

theorem tcpEvent_user {σ} {lb : TcpLabel σ} {f : σ → σ} {cr : Option HandlerId} (h : tcpEvent lb = some (.user f cr)) :
    lb = .server (.outside (.user f cr)) ∨ ∃ t, lb = .server (.effect t (.user f cr)) := by
  cases lb with
  | arrive c bs => cases h
  | hangup c e => cases h
  | take c => cases h
  | piece c bs => cases h
  | server l =>
    cases l with
    | start t ev => cases h
    | inner t => cases h
    | ended t => cases h
    | dropped t o => cases o <;> cases h
    | effect t ev => cases ev <;> cases h; exact .inr ⟨t, rfl⟩
    | outside ev => cases ev <;> cases h; exact .inl rfl

/-- What the application does to object `o` in a step. -/
theorem used_step (hb : Behaves code env) {ls : List (MachineLabel (HandlerId → τ))} {s s' : Machine code}
    {lb : Option (MachineLabel (HandlerId → τ))} (hK : KInv code env p devices w ls s)
    (st : Machine.Step code env p s lb s') (o : HandlerId) :
    (∃ a e0 cr, s.whole.fine.app a = some (o, e0) ∧ s'.whole.fine.app a = none ∧
      lb = some (.inner (.server (.outside (.user (fun u => upd u o (s.whole.fine.cfg.shared.world.user o)) cr))))) ∨
    ((∀ a e0, s.whole.fine.app a = some (o, e0) → s'.whole.fine.app a ≠ none) ∧
      ∀ lb', lb = some (.inner lb') → ∀ f cr, tcpEvent lb' = some (.user f cr) → ∀ u, f u o = u o) := by
  obtain ⟨_, w', _, hr⟩ := whole_reach hb hK.whole
  have hkind : ∀ {t : Nat} {f : Flight (HandlerId → τ)} {g : (HandlerId → τ) → HandlerId → τ} {cr : Option HandlerId},
      s.whole.fine.cfg.flights t = some f → f.ev ≠ .user g cr := by
    intro t f g cr hf hev
    rcases (TInv.reach hr).kind (t := t) (f := f) hf with ⟨c, w, h, _⟩ | ⟨⟨d, h⟩ | ⟨i, h⟩, _⟩ <;> rw [hev] at h <;> cases h
  have same : s'.whole.fine.app = s.whole.fine.app →
      ∀ a e0, s.whole.fine.app a = some (o, e0) → s'.whole.fine.app a ≠ none := by
    intro h a e0 ha; rw [h, ha]; exact fun hn => by cases hn
  cases st with
  | inner lb1 w1 st1 hl =>
    cases st1 with
    | socket lb2 a st2 hl2 ho =>
      refine .inr ⟨same rfl, fun lb' e f cr hev => ?_⟩
      cases e
      rcases tcpEvent_user hev with rfl | ⟨t, rfl⟩
      · exact absurd trivial (hl2 _ rfl)
      · exact absurd trivial (hl2 _ rfl)
    | handler lb2 f2 st2 hl2 =>
      cases st2 with
      | outer lb3 cfg' st3 ho hu he =>
        refine .inr ⟨same rfl, fun lb' e f cr hev => ?_⟩
        cases e
        rcases tcpEvent_user hev with h | ⟨t, h⟩
        · cases h; exact absurd rfl (hu f cr)
        · cases h
          generalize hL : (Label.effect t (Event.user f cr) : Label (HandlerId → τ)) = L at st3
          cases st3 <;> first | (cases hL; done) | skip
          rename_i t' f' g k ht hk
          injection hL with _ h
          exact absurd h.symm (hkind ht)
      | enter t f g k c cont ht hk hc hr hi hf hp => exact .inr ⟨same rfl, fun lb' e => by cases e⟩
      | poisoned t f g k c cont ht hk hc hr hi hp =>
        refine .inr ⟨same rfl, fun lb' e f' cr hev => ?_⟩
        cases e
        rcases tcpEvent_user hev with h | ⟨t', h⟩
        · cases h
        · injection h with h; injection h with _ h; exact absurd h (hkind ht)
      | work t i ht hr => exact .inr ⟨same rfl, fun lb' e => by cases e⟩
      | leave t f i r ht hf hr =>
        refine .inr ⟨same rfl, fun lb' e f' cr hev => ?_⟩
        cases e
        rcases tcpEvent_user hev with h | ⟨t', h⟩
        · cases h
        · injection h with h; injection h with _ h; exact absurd h (hkind hf)
      | appEnter a o' ha hf =>
        refine .inr ⟨fun a' e0 ha' => ?_, fun lb' e => by cases e⟩
        dsimp only
        unfold upd
        split
        · exact fun hn => by cases hn
        · rw [ha']; exact fun hn => by cases hn
      | appWork a o' e v ha => exact .inr ⟨same rfl, fun lb' e => by cases e⟩
      | appLeave a o' e ha =>
        by_cases ho : o' = o
        · subst ho
          exact .inl ⟨a, e, none, ha, by simp [upd], rfl⟩
        · refine .inr ⟨fun a' e0 ha' => ?_, fun lb' e f' cr hev u => ?_⟩
          · dsimp only
            unfold upd
            split
            · rename_i h; subst h; rw [ha] at ha'; cases ha'; exact absurd rfl ho
            · rw [ha']; exact fun hn => by cases hn
          · cases e
            cases hev
            simp [upd, Ne.symm ho]
      | appCrash a h e ha =>
        by_cases ho : code.obj h = o
        · subst ho
          exact .inl ⟨a, e, some h, ha, by simp [upd], rfl⟩
        · refine .inr ⟨fun a' e0 ha' => ?_, fun lb' e f' cr hev u => ?_⟩
          · dsimp only
            unfold upd
            split
            · rename_i h; subst h; rw [ha] at ha'; cases ha'; exact absurd rfl ho
            · rw [ha']; exact fun hn => by cases hn
          · cases e
            cases hev
            simp [upd, Ne.symm ho]
      | appPanic h hf =>
        refine .inr ⟨same rfl, fun lb' e f' cr hev u => ?_⟩
        cases e
        cases hev
        rfl
  | serve => exact .inr ⟨same rfl, fun lb' e => by cases e⟩
  | dial => exact .inr ⟨same rfl, fun lb' e => by cases e⟩
  | refuse => exact .inr ⟨same rfl, fun lb' e => by cases e⟩
  | accept => exact .inr ⟨same rfl, fun lb' e => by cases e⟩
  | acceptErr => exact .inr ⟨same rfl, fun lb' e => by cases e⟩
  | dropServe => exact .inr ⟨same rfl, fun lb' e => by cases e⟩
  | early => exact .inr ⟨same rfl, fun lb' e => by cases e⟩
  | earlyEnd => exact .inr ⟨same rfl, fun lb' e => by cases e⟩

/-- What a thread found when it got hold of an object is what the history says of it. -/
theorem app_found (hb : Behaves code env) {ls : List (MachineLabel (HandlerId → τ))} {s : Machine code}
    (hK : KInv code env p devices w ls s) {a : Nat} {o : HandlerId} {e0 : τ} (ha : s.whole.fine.app a = some (o, e0)) :
    (behindNet env p devices w ls).sys.shared.world.user o = e0 := by
  obtain ⟨_, w', hA, hr⟩ := whole_reach hb hK.whole
  obtain ⟨h1, _⟩ := C79_explained env p devices w _ _ hr
  have h1' : w' = (behindNet env p devices w ls).sys.shared.world := h1
  rw [← h1']
  exact hA.app a o e0 ha

end

theorem moves_said {d d' : Driver} (h : d.Moves d') :
    ∃ cs, d'.said = d.said ++ cs ∧ ∀ q ∈ cs, isImport q = false := by
  induction h with
  | refl => exact ⟨[], by simp, by simp⟩
  | @submit d1 h seq u hp hf hw ih =>
    obtain ⟨cs, h1, h2⟩ := ih
    refine ⟨cs ++ [u.cmd d1.devid seq], by simp [h1], fun q hq => ?_⟩
    rcases List.mem_append.mp hq with hq | hq
    · exact h2 q hq
    · rw [List.mem_singleton.mp hq]; rfl
  | @unlink d1 h seq target hp hf ht ih =>
    obtain ⟨cs, h1, h2⟩ := ih
    refine ⟨cs ++ [unlinkCmd d1.devid seq target], by simp [h1], fun q hq => ?_⟩
    rcases List.mem_append.mp hq with hq | hq
    · exact h2 q hq
    · rw [List.mem_singleton.mp hq]; rfl
  | hear h bs ih =>
    obtain ⟨cs, h1, h2⟩ := ih
    exact ⟨cs, by rw [← h1]; exact (hear_ghosts _ bs).1, h2⟩

section
variable {τ α β κ ι : Type} {code : Code τ} {env : Env (HandlerId → τ)} {p : Profile} {o : HandlerId} {key : HCall → Option κ} {tag : κ → ι} {view : τ → β}
  {obj : κ → β → HRes × β} {act : α → β → β} {devices : List Device} {dev : Device}
  {w : World (HandlerId → τ)}
  {e : MachineExec code env p (Machine.init code devices w)} {c : Nat} {busid : Bytes} {devid : UInt32} {d : Nat → Driver}
  {acts : Nat → List α}

theorem alongside_asks (ha : Alongside e c busid devid d) (n : Nat) : Asks busid (d n).said := by
  suffices H : ∃ cs, (d n).said = .reqImport 0 busid :: cs ∧ ∀ q ∈ cs, isImport q = false by
    obtain ⟨cs, h1, h2⟩ := H
    exact ⟨cs, by rw [h1]; exact List.prefix_refl _, h2⟩
  induction n with
  | zero => exact ⟨[], by rw [ha.start]; rfl, by simp⟩
  | succ n ih =>
    obtain ⟨cs, h1, h2⟩ := ih
    obtain ⟨cs', h3, h4⟩ := moves_said (ha.moves n)
    refine ⟨cs ++ cs', by rw [h3, h1]; rfl, fun q hq => ?_⟩
    rcases List.mem_append.mp hq with hq | hq
    · exact h2 q hq
    · exact h4 q hq

/-- The life of the object, over time. -/
theorem exists_life (hb : Behaves code env) (ha : Alongside e c busid devid d) (hS : Works env o view key obj)
    (hU : Uses e o view act acts) (hname : dev.busId = cstr busid)
    (honly : ∀ n, ∀ d ∈ devicesBy e.label devices n, ∀ call k, key call = some k → call.target ∈ handlersOf d → d = dev)
    (hG : ∀ n, Single dev (devicesBy e.label devices n))
    (f : Nat → List (MachineLabel (HandlerId → τ)) × List (Bytes × Handled))
    (hf : ∀ n, Told e c n (f n).1 (f n).2 ∧ (f n).2 <+: (f (n + 1)).2) (hf0 : (f 0).1 = [])
    (hf1 : ∀ n, (f (n + 1)).1 = (f n).1 ++ (e.label n).toList) :
    ∃ q : Nat → Phases α κ, ∀ n, Life o key tag view obj act (devicesBy e.label devices n) dev c (view (w.user o))
      (behindNet env p devices w (f n).1) (f n).2 (actsBy acts n) (q n) ∧ (q n).Then (q (n + 1)) := by
  obtain ⟨q, _, hq⟩ := exists_chain
    (P := fun n q => Life o key tag view obj act (devicesBy e.label devices n) dev c (view (w.user o))
      (behindNet env p devices w (f n).1) (f n).2 (actsBy acts n) q)
    (R := fun _ q q' => q.Then q') ⟨false, [], [], []⟩
    (by
      have hL : (f 0).2 = [] := by rw [(hf 0).1.made, hf0]; rfl
      rw [hf0, hL]
      exact ⟨Stock.init devices w, rfl, rfl, fun _ _ => rfl, fun _ => ⟨rfl, rfl, by simp, fun x hx => by cases hx⟩,
        fun hs => by cases hs⟩)
    (fun n q hl => by
      have hrun : behindNet env p devices w (f (n + 1)).1 =
          (behindNet env p devices w (f n).1).run env p (((e.label n).toList.flatMap toServer).filterMap tcpEvent) := by
        rw [hf1]
        simp only [behindNet, Net.run, List.flatMap_append, List.filterMap_append, List.foldl_append]
      have hmade : (f (n + 1)).2 = (f n).2 ++ madeBy env p c (behindNet env p devices w (f n).1)
          (((e.label n).toList.flatMap toServer).filterMap tcpEvent) := by
        rw [(hf (n + 1)).1.made, hf1, List.flatMap_append, List.filterMap_append, madeBy_append, ← (hf n).1.made]
      have hasks : Asks busid ((f (n + 1)).2.map (fun e => e.2.1)) := by
        have := ((hf (n + 1)).1.asked ha).2
        rw [List.map_map] at this
        exact (alongside_asks ha (n + 1)).prefix this
      have hgave := gave_label (e.label n) (devicesBy e.label devices n)
      show ∃ y, Life o key tag view obj act (devicesBy e.label devices n ++ addedIn (e.label n)) dev c _ _ _ (actsBy acts n ++ acts n) y ∧ _
      rw [hmade] at hasks ⊢
      rw [hrun]
      have B : (∀ a e0, (e.state n).whole.fine.app a = some (o, e0) →
            (e.state (n + 1)).whole.fine.app a ≠ none) →
          (∀ lb', e.label n = some (.inner lb') → ∀ g cr, tcpEvent lb' = some (.user g cr) → ∀ u,
            g u o = u o) →
          ∃ y, Life o key tag view obj act (devicesBy e.label devices n ++ addedIn (e.label n)) dev c (view (w.user o))
            ((behindNet env p devices w (f n).1).run env p (((e.label n).toList.flatMap toServer).filterMap tcpEvent))
            ((f n).2 ++ madeBy env p c (behindNet env p devices w (f n).1)
              (((e.label n).toList.flatMap toServer).filterMap tcpEvent)) (actsBy acts n ++ acts n) y ∧ q.Then y := by
        intro h1 h2
        have hacts := hU.only n h1
        by_cases hus : ∃ lb' g cr, e.label n = some (.inner lb') ∧ tcpEvent lb' = some (.user g cr)
        · obtain ⟨lb', g, cr, h3, h4⟩ := hus
          have hev : ((e.label n).toList.flatMap toServer).filterMap tcpEvent = [.user g cr] := by
            rw [h3]; simp [toServer, h4]
          have hno : addedIn (e.label n) = [] := by rw [h3]; simp only [addedIn, h4]
          rw [hev, hacts, hno, List.append_nil]
          have := hl.used (env := env) (p := p) g cr [] (by rw [h2 lb' h3 g cr h4]; rfl)
          simpa only [madeBy, List.append_nil, Net.run, List.foldl_cons, List.foldl_nil] using this
        · rw [hacts, List.append_nil]
          rw [← hgave]
          refine hl.events hS hname _ (by rw [hgave]; exact hG (n + 1)) (by rw [hgave]; exact honly (n + 1)) (fun ev hev => ?_) hasks
          obtain ⟨lb', hm, hev⟩ := List.mem_filterMap.mp hev
          cases hlab : e.label n with
          | none => rw [hlab] at hm; simp at hm
          | some ml =>
            rw [hlab] at hm
            simp only [Option.toList, List.flatMap_cons, List.flatMap_nil, List.append_nil] at hm
            cases ml with
            | inner lb1 =>
              simp only [toServer, List.mem_singleton] at hm
              subst hm
              exact fun g cr he => hus ⟨lb', g, cr, hlab, by rw [hev, he]⟩
            | accept k c' bs fin =>
              simp only [toServer, List.mem_cons] at hm
              rcases hm with rfl | rfl | hm
              · cases hev; exact fun _ _ h => (by cases h)
              · cases hev; exact fun _ _ h => (by cases h)
              · cases fin with
                | none => simp at hm
                | some er =>
                  simp only [Option.map_some, Option.toList, List.mem_singleton] at hm
                  subst hm
                  cases hev; exact fun _ _ h => (by cases h)
            | serve => simp [toServer] at hm
            | dial => simp [toServer] at hm
            | acceptErr => simp [toServer] at hm
            | dropServe => simp [toServer] at hm
            | early => simp [toServer] at hm
            | earlyEnd => simp [toServer] at hm
      rcases e.step n with st | ⟨h1, h2⟩
      · rcases used_step hb (hf n).1.inv st o with ⟨a, e0, cr, g1, g2, g3⟩ | ⟨g1, g2⟩
        · have hev : ((e.label n).toList.flatMap toServer).filterMap tcpEvent =
              [.user (fun u => upd u o ((e.state n).whole.fine.cfg.shared.world.user o)) cr] := by
            rw [g3]; simp [toServer, tcpEvent, Label.event, live]
          have hno : addedIn (e.label n) = [] := by rw [g3]; simp [addedIn, tcpEvent, Label.event, live]
          rw [hev, hno, List.append_nil]
          have := hl.used (env := env) (p := p)
            (fun u => upd u o ((e.state n).whole.fine.cfg.shared.world.user o)) cr (acts n) (by
              rw [app_found hb (hf n).1.inv g1, ← hU.done n a e0 g1 g2]
              simp [upd])
          simpa only [madeBy, List.append_nil, Net.run, List.foldl_cons, List.foldl_nil] using this
        · exact B g1 g2
      · refine B (fun a e0 h3 => ?_) (fun lb' h3 => ?_)
        · rw [h2, h3]; exact fun hn => by cases hn
        · rw [h1] at h3; cases h3)
  exact ⟨q, hq⟩

end

end Usbip
