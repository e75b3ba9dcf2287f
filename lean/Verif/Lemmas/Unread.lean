import Verif.Lemmas.Deadlock
import Verif.Lemmas.FreezeLive
/-! Helper lemmas: a reply that is not read (C108). -/

namespace Usbip
open Spec

/-- A command whose reply has not been read to the end stays at its reply. -/
theorem tcp_unread {σ} {env : Env σ} {p : Profile} {s s' : Tcp σ} {lb : TcpLabel σ} (st : Tcp.Step env p s lb s') {u c : Nat}
    {g : Flight σ} {k : Task σ} {y : Conn} (hg : s.cfg.flights u = some g) (ho : g.owner = some c) (hk : g.code = .send k)
    (hy : k.final = some y) (hne : s.got c ≠ y.output) (hd : ∀ o, lb ≠ .server (.dropped u o)) :
    s'.cfg.flights u = some g ∧ ∀ b, lb = .server b → prog b ≠ some u := by
  have lab : ∀ b, lb = .server b → prog b ≠ some u := by
    rintro b rfl hp
    cases st with
    | connect c h => cases hp
    | iterate t c w x ht => cases hp; rw [hg] at ht; cases ht
    | iterateEnd t c w x e ht => cases hp; rw [hg] at ht; cases ht
    | sent t c' f k' y' ht ho' hk' hy' hp' =>
      cases hp
      rw [hg] at ht; cases ht
      rw [ho] at ho'; cases ho'
      rw [hk] at hk'; cases hk'
      rw [hy] at hy'; cases hy'
      exact hne hp'
    | other _ a st h1 h2 h3 =>
      cases st with
      | connect => cases hp
      | user => cases hp
      | cancel => cases hp
      | iterate t' c w x ht => cases hp; rw [hg] at ht; cases ht
      | add t' d ht => cases hp; rw [hg] at ht; cases ht
      | remove t' i ht => cases hp; rw [hg] at ht; cases ht
      | request t' f' l' md k' ht hk' => cases hp; rw [hg] at ht; cases ht; rw [hk] at hk'; cases hk'
      | grant t' f' l' md k' q ht hk' => cases hp; rw [hg] at ht; cases ht; rw [hk] at hk'; cases hk'
      | abandon t' f' ht hc => cases hp; exact absurd rfl (hd f'.owner)
      | unlock t' f' l' k' ht hk' => cases hp; rw [hg] at ht; cases ht; rw [hk] at hk'; cases hk'
      | getUsed t' f' k' ht hk' => cases hp; rw [hg] at ht; cases ht; rw [hk] at hk'; cases hk'
      | getAvail t' f' k' ht hk' => cases hp; rw [hg] at ht; cases ht; rw [hk] at hk'; cases hk'
      | putUsed t' f' v k' ht hk' => cases hp; rw [hg] at ht; cases ht; rw [hk] at hk'; cases hk'
      | putAvail t' f' v k' ht hk' => cases hp; rw [hg] at ht; cases ht; rw [hk] at hk'; cases hk'
      | commit t' f' g' k' ht hk' => cases hp; rw [hg] at ht; cases ht; rw [hk] at hk'; cases hk'
      | send t' f' k' ht hk' => cases hp; exact h3 _ _ _ rfl ht hk'
      | finish t' f' x ht hk' => cases hp; rw [hg] at ht; cases ht; rw [hk] at hk'; cases hk'
  refine ⟨?_, lab⟩
  have h := tcp_flightStep st
  cases hs : serverStep lb with
  | none => rw [hs] at h; rw [h.1]; exact hg
  | some b =>
    rw [hs] at h
    obtain ⟨a, b', st', ha, _, hb, _⟩ := h
    rw [← hb]
    refine (flights_other st' (lab b ?_)).trans (by rw [ha]; exact hg)
    cases lb with
    | server l => cases hs; rfl
    | _ => cases hs

/-- As long as its client does not read, it stays there. -/
theorem unread_path {τ} {code : Code τ} {env : Env (HandlerId → τ)} (hb : Behaves code env) {p : Profile}
    {devices : List Device} {w : World (HandlerId → τ)} {ls0 ls : List (TcpLabel (HandlerId → τ))} {s s' : Whole code}
    (h0 : Whole.Reach code env p (Whole.init code devices w) ls0 s) {u c : Nat} {g : Flight (HandlerId → τ)}
    {k : Task (HandlerId → τ)} {y : Conn} (hg : s.fine.cfg.flights u = some g) (ho : g.owner = some c) (hk : g.code = .send k)
    (hy : k.final = some y) (hne : s.got c ≠ y.output) (h : Whole.Reach code env p s ls s')
    (hd : ∀ o, .server (.dropped u o) ∉ ls) (hr : ∀ b bs, .piece c (b :: bs) ∉ ls) :
    s'.fine.cfg.flights u = some g ∧ s'.got c = s.got c ∧ ∀ b, .server b ∈ ls → prog b ≠ some u := by
  induction h with
  | refl => exact ⟨hg, rfl, nofun⟩
  | @tail ls s1 lb s2 h1 st ih =>
    obtain ⟨i1, i2, i3⟩ := ih (fun o e => hd o (by simp [e])) (fun b bs e => hr b bs (by simp [e]))
    obtain ⟨hI, w1, hA, hr1⟩ := whole_reach hb (h0.trans h1)
    have hC : Covered env p s1.fine.cfg := fun t f g k ht hk => tcp_covered hr1 t f g k ht hk
    obtain ⟨_, w2, _, hst⟩ := whole_step hb hC hI st hA
    cases lb with
    | none =>
      have hst : s2.tcp.withWorld w2 = s1.tcp.withWorld w1 := hst
      have e1 : s2.fine.cfg.flights = s1.fine.cfg.flights := congrArg (fun a => a.cfg.flights) hst
      have e4 : s2.got = s1.got := congrArg (fun a => a.got) hst
      exact ⟨e1 ▸ i1, by rw [e4]; exact i2, fun b hm => i3 b (by simpa using hm)⟩
    | some lb =>
      have hst : Tcp.Step env p (s1.tcp.withWorld w1) lb (s2.tcp.withWorld w2) := hst
      obtain ⟨a1, a2⟩ := tcp_unread hst (u := u) (c := c) (g := g) i1 ho hk hy (by
        show s1.got c ≠ y.output
        rw [i2]; exact hne) (fun o e => hd o (by simp [e]))
      refine ⟨a1, ?_, fun b hm => ?_⟩
      · rcases got_step hst c with ⟨h, _⟩ | ⟨_, _, _, _, bs, e, _, _, _, _, _, h⟩
        · exact Eq.trans h i2
        · cases bs with
          | nil => rw [List.append_nil] at h; exact Eq.trans h i2
          | cons b bs => exact absurd (by simp [e]) (hr b bs)
      · rcases List.mem_append.1 hm with hm | hm
        · exact i3 b hm
        · exact a2 b (List.mem_singleton.1 hm).symm

/-- While somebody has the table of used devices for writing and does not move, nobody else is sent a byte. -/
theorem writer_mute {τ} {code : Code τ} {env : Env (HandlerId → τ)} (hb : Behaves code env) {p : Profile}
    {devices : List Device} {w : World (HandlerId → τ)} {ls0 ls : List (TcpLabel (HandlerId → τ))} {s s' : Whole code}
    (h0 : Whole.Reach code env p (Whole.init code devices w) ls0 s) {u : Nat} {g : Flight (HandlerId → τ)}
    (hg : s.fine.cfg.flights u = some g) (hw : g.held .used = some .w) (h : Whole.Reach code env p s ls s')
    (hl : ∀ b, .server b ∈ ls → prog b ≠ some u) :
    s'.fine.cfg.flights u = some g ∧ ∀ c, g.owner ≠ some c → s'.got c = s.got c := by
  induction h with
  | refl => exact ⟨hg, fun _ _ => rfl⟩
  | @tail ls s1 lb s2 h1 st ih =>
    obtain ⟨i1, i2⟩ := ih (fun b hm => hl b (by simp [hm]))
    obtain ⟨hI, w1, hA, hr1⟩ := whole_reach hb (h0.trans h1)
    have hC : Covered env p s1.fine.cfg := fun t f g k ht hk => tcp_covered hr1 t f g k ht hk
    obtain ⟨_, w2, _, hst⟩ := whole_step hb hC hI st hA
    cases lb with
    | none =>
      have hst : s2.tcp.withWorld w2 = s1.tcp.withWorld w1 := hst
      have e1 : s2.fine.cfg.flights = s1.fine.cfg.flights := congrArg (fun a => a.cfg.flights) hst
      have e4 : s2.got = s1.got := congrArg (fun a => a.got) hst
      exact ⟨e1 ▸ i1, fun c hc => by rw [e4]; exact i2 c hc⟩
    | some lb =>
      have hst : Tcp.Step env p (s1.tcp.withWorld w1) lb (s2.tcp.withWorld w2) := hst
      have hT := TInv.reach hr1
      refine ⟨?_, fun c hc => ?_⟩
      · have h := tcp_flightStep hst
        cases hs : serverStep lb with
        | none => rw [hs] at h; exact (congrFun h.1 u).trans i1
        | some b =>
          rw [hs] at h
          obtain ⟨a, b', st', ha, _, hb', _⟩ := h
          refine (congrFun hb' u).symm.trans ((flights_other st' (hl b ?_)).trans ((congrFun ha u).trans i1))
          cases lb with
          | server l => cases hs; simp
          | _ => cases hs
      · rcases got_step hst c with ⟨h, _⟩ | ⟨x, fx, kx, _, bs, _, hx, hox, hkx, _, _, _⟩
        · exact Eq.trans h (i2 c hc)
        · have hne : x ≠ u := by
            rintro rfl
            have : some fx = some g := hx.symm.trans i1
            cases this; exact hc hox
          exact absurd (hT.excl (g := g) hne hx i1 hw) (hT.sends_locked hx hkx)

/-- Replies are sent with the table of used devices locked for writing. -/
def Task.Solely {σ} : Task σ → (held : Lk → Option Mode) → Prop
  | .done _, _ => True
  | .lock l m k, held => k.Solely (upd held l (some m))
  | .unlock l k, held => k.Solely (upd held l none)
  | .getUsed k, held => ∀ v, (k v).Solely held
  | .getAvail k, held => ∀ v, (k v).Solely held
  | .putUsed _ k, held => k.Solely held
  | .putAvail _ k, held => k.Solely held
  | .commit _ k, held => ∀ w, (k w).Solely held
  | .send k, held => held .used = some .w ∧ k.Solely held

theorem Task.Solely.step {σ} {c c' : Task σ} {h h' : Lk → Option Mode} (st : CodeStep c h c' h')
    (hs : c.Solely h) : c'.Solely h' := by
  cases st with
  | same => exact hs
  | lock => exact hs
  | unlock => exact hs
  | getUsed => exact hs _
  | getAvail => exact hs _
  | putUsed => exact hs
  | putAvail => exact hs
  | commit => exact hs _
  | send => exact hs.2

theorem importTask_Solely {σ} (p : Profile) (x : Conn) (rest : Stream) (cmd : Cmd) (busid : Bytes) (w : WriteRes) :
    (importTask p x rest cmd busid w : Task σ).Solely (fun _ => none) := by
  simp only [importTask, Task.Solely]
  intro _ a
  split <;> simp [Task.Solely, upd]

theorem solely_reach {σ} {env : Env σ} {p : Profile} {devices : List Device} {w : World σ}
    {ls : List (Label σ)} {s : Cfg σ} (h : Cfg.Reach env p (Cfg.init devices w) ls s) :
    ∀ t f c x st b rest, s.flights t = some f → f.owner = some c → s.conns c = some x →
      readCommand p x.input = .ok (.reqImport st b, rest) → f.code.Solely f.held := by
  induction h with
  | refl => intro t f c x _ _ _ h; simp [Cfg.init] at h
  | @tail ls s lb s' h st ih =>
    intro t g c x st' b rest ht ho hx hn
    rcases flight_step st ht with ⟨f, hf, _, hown, hcs⟩ | ⟨_, hcn, ⟨c', w', x', rfl, hx', _⟩ | ⟨d, rfl⟩ | ⟨i, rfl⟩⟩
    · have hof : f.owner = some c := hown ▸ ho
      rw [owner_conn (CInv.reach h) st ht hf hof] at hx
      exact (ih t f c x st' b rest hf hof hx hn).step hcs
    · cases ho
      rw [hcn, hx'] at hx; cases hx
      show (iterTask env p x w').Solely (fun _ => none)
      unfold iterTask
      rw [hn]
      exact importTask_Solely p x _ _ _ _
    · cases ho
    · cases ho

/-- The reply to an import is sent with the table of used devices locked for writing. -/
theorem TInv.import_locks {σ} {env : Env σ} {p : Profile} {devices : List Device} {w : World σ} {ls : List (TcpLabel σ)}
    {s : Tcp σ} (h : TInv env p devices w ls s) {t c : Nat} {f : Flight σ} {k : Task σ} {x : Conn} {st : UInt32} {b : Bytes}
    {more : Arrived} (hf : s.cfg.flights t = some f) (ho : f.owner = some c) (hx : s.cfg.conns c = some x)
    (hin : (readCommand p : Rd Arrived Cmd) ⟨x.input.bytes⟩ = .ok (.reqImport st b, more))
    (hk : f.code = .send k) : f.held .used = some .w := by
  obtain ⟨ls', hr, _, _⟩ := h.fore _ (someFuture_possible s)
  have he := early_readCommand p x.input.bytes
  rw [hin] at he
  have := solely_reach hr t _ c (awaiting x (inSocket s (someFuture s) c)) st b _ (hearing_flight hf) ho
    (by simp only [hearing, hx, Option.map_some]) (he _ _)
  simp only [hk, ho] at this
  exact this.1

end Usbip
