import Verif.Lemmas.Freeze
import Verif.Props.WholeLive
import Verif.Props.Stall
/-!
# A handler that never returns, and somebody who wants to import (C106)
-/

namespace Usbip
open Spec Samples

/-- C106: once a command is inside handler code that never returns (program `u`), and another
program, `t`, waits to write the table of used devices (an import; the giving back of a device), then, unless that
is dropped, whatever happens: neither of the two gets on, their clients receive nothing, and no client whose
connection was between two commands, or is made later, receives a single byte.  No command of such a client
gets so far as to be acted upon: it never has the lock all commands begin with. -/
theorem C106_freeze {τ} (code : Code τ) (env : Env (HandlerId → τ)) (hb : Behaves code env) (p : Profile)
    (devices : List Device) (w : World (HandlerId → τ)) (ls ls' : List (TcpLabel (HandlerId → τ))) (s s' : Whole code)
    (h : Whole.Reach code env p (Whole.init code devices w) ls s)
    (u t : Nat) (i : Inside code) (f : Flight (HandlerId → τ)) (k : Task (HandlerId → τ))
    (hi : s.fine.inside u = some i)
    (hn : ∀ l v, Goes code (code.start i.call) i.entry l v → code.result l = none)
    (ht : s.fine.cfg.flights t = some f) (hw : f.waiting = true) (hk : f.code = .lock .used .w k)
    (h' : Whole.Reach code env p s ls' s') (hnt : ∀ o, .server (.dropped t o) ∉ ls') :
    s'.fine.inside u ≠ none ∧ s'.fine.cfg.flights t = some f ∧
    (∀ v g c, v = u ∨ v = t → s.fine.cfg.flights v = some g → g.owner = some c → s'.got c = s.got c) ∧
    ∀ c, s.fine.cfg.idle c →
      s'.got c = s.got c ∧
      (∀ x x', s.fine.cfg.conns c = some x → s'.fine.cfg.conns c = some x' → x'.output = x.output) ∧
      (s.fine.cfg.conns c = none → s'.got c = [] ∧ ∀ x', s'.fine.cfg.conns c = some x' → x'.output = []) ∧
      ∀ v g, s'.fine.cfg.flights v = some g → g.owner = some c → g.held .used = none := by
  obtain ⟨h1, h2, h3, h4⟩ := whole_freeze hb h hi hn ht hw hk h' hnt
  refine ⟨h1, h2, h3, fun c hc => ?_⟩
  obtain ⟨hs, hg, hh⟩ := h4 c hc
  refine ⟨hg, fun x x' hx hx' => ?_, fun hx => ⟨hg.trans ?_, fun x' hx' => ?_⟩, hh⟩
  · unfold sentTo at hs; rw [hx, hx'] at hs; exact hs
  · obtain ⟨_, w0, _, hr⟩ := whole_reach hb h
    exact ((TInv.reach hr).fresh c hx).2.2
  · unfold sentTo at hs; rw [hx, hx'] at hs; exact hs

/-- The steps of program `t` from its start to waiting for the second lock of an import. -/
theorem import_waits {τ} {code : Code τ} {env : Env (HandlerId → τ)} {p : Profile} {s0 s : Whole code}
    {ls0 : List (TcpLabel (HandlerId → τ))} (h0 : Whole.Reach code env p s0 ls0 s) (t c : Nat) (x : Conn) (rest : Stream) (cmd : Cmd) (busid : Bytes)
    (ht : s.fine.cfg.flights t = some (Flight.start (.iterate c .full) (some c) (importTask p x rest cmd busid .full)))
    (hin : s.fine.inside t = none) (hq : s.fine.cfg.queue .used = [])
    (hnw : ∀ u g, s.fine.cfg.flights u = some g → g.held .used ≠ some .w) :
    ∃ ls s' f k, Whole.Reach code env p s0 (ls0 ++ ls) s' ∧ s'.fine.cfg.flights t = some f ∧ f.waiting = true ∧
      f.code = .lock .used .w k ∧ f.owner = some c ∧ (∀ v, v ≠ t → s'.fine.cfg.flights v = s.fine.cfg.flights v) ∧
      s'.fine.inside = s.fine.inside ∧ s'.fine.cfg.conns = s.fine.cfg.conns ∧ s'.got = s.got ∧
      (∀ lb ∈ ls, lb = .server (.inner t)) ∧ (∃ k', k = .lock .avail .w k') ∧ (∀ l, f.held l = none) ∧
      s'.fine.cfg.shared = s.fine.cfg.shared ∧ s'.fine.cfg.queue = upd s.fine.cfg.queue .used [t] := by
  have own : ∀ (l : Label (HandlerId → τ)) t', TcpLabel.server (.inner t) = .server l → prog l = some t' → s.fine.inside t' = none := by
    intro l t' e e'; cases e; cases e'; exact hin
  have r1 := Whole.Reach.tail (.refl (s0 := s) (code := code) (env := env) (p := p)) (.socket _ _ _
    (.other _ _ _ (.request _ t _ _ _ _ ht rfl rfl) (fun _ _ => nofun) (fun _ _ _ => nofun) (fun t' f k e hf hk => by
      cases e; have := ht.symm.trans hf; cases this; cases hk)) (fun l e => by cases e; exact id) own)
  have r2 := r1.tail (.socket _ _ _
    (.other _ _ _ (.grant _ t _ _ _ _ [] (upd_self _ _ _) rfl rfl (by simp [upd_self, Whole.tcp, hq]) (fun u g h hu hg => by
      by_cases e : u = t
      · subst e
        have : some _ = some g := (upd_self _ _ _).symm.trans hu
        cases this; cases hg
      · have : s.fine.cfg.flights u = some g := (upd_ne _ _ e).symm.trans hu
        cases h with
        | r => rfl
        | w => exact absurd hg (hnw u g this))) (fun _ _ => nofun) (fun _ _ _ => nofun) (fun t' f k e hf hk => by
      cases e
      have : some _ = some f := (upd_self _ _ _).symm.trans hf
      cases this; cases hk)) (fun l e => by cases e; exact id) own)
  have r3 := r2.tail (.socket _ _ _
    (.other _ _ _ (.unlock _ t _ _ _ (upd_self _ _ _) rfl) (fun _ _ => nofun) (fun _ _ _ => nofun) (fun t' f k e hf hk => by
      cases e
      have : some _ = some f := (upd_self _ _ _).symm.trans hf
      cases this; cases hk)) (fun l e => by cases e; exact id) own)
  have r4 := r3.tail (.socket _ _ _
    (.other _ _ _ (.request _ t _ _ _ _ (upd_self _ _ _) rfl rfl) (fun _ _ => nofun) (fun _ _ _ => nofun) (fun t' f k e hf hk => by
      cases e
      have : some _ = some f := (upd_self _ _ _).symm.trans hf
      cases this; cases hk)) (fun l e => by cases e; exact id) own)
  refine ⟨_, _, _, _, h0.trans r4, upd_self _ _ _, rfl, rfl, rfl, fun v hv => ?_, rfl, rfl, rfl, fun lb h => ?_, ⟨_, rfl⟩,
    fun l => ?_, rfl, ?_⟩
  · simp [Cfg.put, upd_ne _ _ hv, Whole.tcp]
  · simpa using h
  · cases l <;> simp [Flight.start, upd]
  · funext l; cases l <;> simp [upd, hq, Whole.tcp, Cfg.put]

/-- The same from the request's arrival. -/
theorem asked_waits {τ} {code : Code τ} {env : Env (HandlerId → τ)} {p : Profile} {s0 s : Whole code}
    {ls0 : List (TcpLabel (HandlerId → τ))} (h0 : Whole.Reach code env p s0 ls0 s) (t c : Nat) (busid : Bytes)
    (hlen : busid.length = 32) (ht : s.fine.cfg.flights t = none) (hin : s.fine.inside t = none)
    (hc : s.fine.cfg.conns c = some (Conn.new ⟨[], .unexpectedEof⟩)) (idle : s.fine.cfg.idle c)
    (hbuf : s.buf c = wireCmd (.reqImport 0 busid)) (hq : s.fine.cfg.queue .used = [])
    (hnw : ∀ u g, s.fine.cfg.flights u = some g → g.held .used ≠ some .w) :
    ∃ ls s' f k, Whole.Reach code env p s0 (ls0 ++ ls) s' ∧ s'.fine.cfg.flights t = some f ∧ f.waiting = true ∧
      f.code = .lock .used .w k ∧ f.owner = some c ∧ (∀ v, v ≠ t → s'.fine.cfg.flights v = s.fine.cfg.flights v) ∧
      s'.fine.inside = s.fine.inside ∧ (∀ d, d ≠ c → s'.fine.cfg.conns d = s.fine.cfg.conns d) ∧ s'.got = s.got ∧
      (∀ lb ∈ ls, lb = .take c ∨ lb = .server (.start t (.iterate c .full)) ∨ lb = .server (.inner t)) ∧
      (∃ k', k = .lock .avail .w k') ∧ (∀ l, f.held l = none) ∧
      s'.fine.cfg.shared = s.fine.cfg.shared ∧ s'.fine.cfg.queue = upd s.fine.cfg.queue .used [t] := by
  have r3 := h0.tail (.socket _ _ _ (.take _ c (Conn.new ⟨[], .unexpectedEof⟩) (wireCmd (.reqImport 0 busid)) []
    hc idle (by rw [List.append_nil]; exact hbuf)) nofun nofun)
  have hread := importStream_read p busid hlen
  have r4 := r3.tail (.socket _ _ _ (.iterate _ t c .full (Conn.new (importStream busid)) ht
    (by simp [Whole.tcp, setConn, Conn.new, importStream]) rfl idle (by
      intro hd
      have he := early_readCommand p (wireCmd (.reqImport 0 busid))
      rw [show (readCommand p : Rd Arrived Cmd) ⟨wireCmd (.reqImport 0 busid)⟩ = .diverge from hd] at he
      have := (he .unexpectedEof).symm.trans hread
      cases this)) (fun l e => by cases e; exact id) (fun l t' e e' => by cases e; cases e'; exact hin))
  have hcode : iterTask env p (Conn.new (importStream busid)) .full = importTask p
      (Conn.new (importStream busid)) ⟨[], .unexpectedEof⟩ (.reqImport 0 busid) busid .full := by
    unfold iterTask
    rw [show (Conn.new (importStream busid)).input = importStream busid from rfl, hread]
  rw [hcode] at r4
  obtain ⟨ls5, s5, f, k, r5, hf, hw, hk, ho, hoth, hins, hcn, hgot, hl5, hk', hh, hsh, hqu⟩ := import_waits r4 t c _ _ _ _
    (upd_self _ _ _) hin hq (fun v g hv => by
      by_cases e : v = t
      · subst e
        have : some _ = some g := (upd_self _ _ _).symm.trans hv
        cases this; nofun
      · exact hnw v g ((upd_ne _ _ e).symm.trans hv))
  rw [List.append_assoc, List.append_assoc] at r5
  refine ⟨_, s5, f, k, r5, hf, hw, hk, ho, fun v hv => (hoth v hv).trans (upd_ne _ _ hv), hins, fun d hd => ?_, hgot, ?_, hk', hh, hsh, hqu⟩
  · rw [hcn]
    simp [Cfg.put, Whole.tcp, setConn, hd]
  · intro lb h
    simp only [Option.toList, List.cons_append, List.nil_append, List.mem_cons] at h
    rcases h with h | h | h
    · exact .inl h
    · exact .inr (.inl h)
    · exact .inr (.inr (hl5 lb h))

/-- C106, it takes no more than a request: whenever a command is inside handler code that never returns and
nobody waits for the table of used devices, one new client that asks for a device — any, be it there or not —
brings about the state of `C106_freeze`. -/
theorem C106_anyone {τ} (code : Code τ) (env : Env (HandlerId → τ)) (hb : Behaves code env) (p : Profile)
    (devices : List Device) (w : World (HandlerId → τ)) (ls : List (TcpLabel (HandlerId → τ))) (s : Whole code)
    (h : Whole.Reach code env p (Whole.init code devices w) ls s)
    (u : Nat) (i : Inside code) (hi : s.fine.inside u = some i) (hq : s.fine.cfg.queue .used = [])
    (t c : Nat) (ht : s.fine.cfg.flights t = none) (hc : s.fine.cfg.conns c = none)
    (busid : Bytes) (hlen : busid.length = 32) :
    ∃ ls' s' f k, Whole.Reach code env p s ls' s' ∧ s'.fine.inside u = some i ∧
      s'.fine.cfg.flights t = some f ∧ f.waiting = true ∧ f.code = .lock .used .w k ∧ f.owner = some c ∧
      (∀ v, v ≠ t → s'.fine.cfg.flights v = s.fine.cfg.flights v) ∧
      (∀ d, d ≠ c → s'.fine.cfg.conns d = s.fine.cfg.conns d) ∧
      s'.got = s.got ∧
      ls'.filterMap tcpEvent = [.connect c, .arrive c (wireCmd (.reqImport 0 busid))] := by
  obtain ⟨hI, w0, _, hr⟩ := whole_reach hb h
  have hT := TInv.reach hr
  obtain ⟨hbuf, hend, _⟩ := hT.fresh c hc
  have hbuf : s.buf c = [] := hbuf
  have hend : s.ended c = none := hend
  have idle : s.fine.cfg.idle c := fun v g hv ho => by
    obtain ⟨x, hx, _⟩ := hT.owned (f := g) hv ho
    rw [show s.fine.cfg.conns c = some x from hx] at hc; cases hc
  have hin : s.fine.inside t = none := by
    cases e : s.fine.inside t with
    | none => rfl
    | some j => obtain ⟨f, _, _, hf, _⟩ := hI.call t j e; rw [ht] at hf; cases hf
  have hnw := ((C81_exclusive code env hb p devices w ls s h).2.2.2.2 u i hi).2
  have r1 := Whole.Reach.tail (.refl (s0 := s) (code := code) (env := env) (p := p)) (.socket _ _ _
    (.connect _ c hc) (fun l e => by cases e; exact id) (fun l t' e e' => by cases e; cases e'))
  have r2 := r1.tail (.socket _ _ _ (.arrive _ c (wireCmd (.reqImport 0 busid)) (by simp [Whole.tcp, setConn]) hend)
    nofun nofun)
  obtain ⟨ls5, s5, f, k, r5, hf, hw, hk, ho, hoth, hins, hcn, hgot, hl5, _⟩ := asked_waits r2 t c busid hlen ht hin
    (by simp [Whole.tcp, setConn]) idle (by simp [Whole.tcp, upd_self, hbuf]) hq hnw
  refine ⟨_, s5, f, k, r5, by rw [hins]; exact hi, hf, hw, hk, ho, hoth, fun d hd => ?_, hgot, ?_⟩
  · rw [hcn d hd]
    simp [Whole.tcp, setConn, hd]
  · rw [List.filterMap_append]
    rw [show ls5.filterMap tcpEvent = [] from List.filterMap_eq_nil_iff.2 fun lb h => by
      rcases hl5 lb h with rfl | rfl | rfl <;> rfl]
    rfl

/-- C106 in a concrete case: two devices, client 0 has imported "1-1" and has sent a submit whose handler sleeps.
Client 1 comes and asks for "1-2", which nobody has imported; from then on, for as long as it does not give up, no
client receives anything, whoever they are and whatever they send. -/
theorem C106_happens : ∃ ls s, Whole.Reach sleeper adderEnv dev (Whole.init sleeper [devA, devB] adderWorld) ls s ∧
    s.fine.inside 0 ≠ none ∧ (∃ f, s.fine.cfg.flights 1 = some f ∧ f.owner = some 1) ∧
    (∀ c, 2 ≤ c → s.fine.cfg.conns c = none) ∧
    ∀ ls' s', Whole.Reach sleeper adderEnv dev s ls' s' → (∀ o, .server (.dropped 1 o) ∉ ls') →
      ∀ c, s'.got c = s.got c := by
  have hb : Behaves sleeper adderEnv := fun c u l v r h hr => by simp [sleeper] at hr
  obtain ⟨ls, s, i, hr, hi, _, ⟨f0, x0, hf0, ho0, hx0⟩, hn, _, hno, hq, hcn⟩ := asleep
  obtain ⟨ls', s', f, k, hr', hi', hf, hw, hk, ho, hoth, hconn, _, _⟩ := C106_anyone sleeper adderEnv hb dev [devA, devB]
    adderWorld ls s hr 0 i hi hq 1 1 (hno 1 (by decide)) (hcn 1 (by decide)) busB rfl
  have hf0' : s'.fine.cfg.flights 0 = some f0 := (hoth 0 (by decide)).trans hf0
  refine ⟨_, s', hr.trans hr', by rw [hi']; simp, ⟨f, hf, ho⟩, fun c hc => ?_, fun ls2 s2 h2 hd c => ?_⟩
  · rw [hconn c (by omega)]; exact hcn c (by omega)
  obtain ⟨_, _, h3, h4⟩ := C106_freeze sleeper adderEnv hb dev [devA, devB] adderWorld _ _ s' s2 (hr.trans hr') 0 1 i f k hi' hn
    hf hw hk h2 hd
  by_cases e0 : c = 0
  · exact h3 0 f0 c (.inl rfl) hf0' (by rw [ho0, e0])
  by_cases e1 : c = 1
  · exact h3 1 f c (.inr rfl) hf (by rw [ho, e1])
  refine (h4 c fun v g hv hg => ?_).1
  by_cases v0 : v = 0
  · subst v0; rw [hf0'] at hv; cases hv; rw [ho0] at hg; cases hg; exact e0 rfl
  by_cases v1 : v = 1
  · subst v1; rw [hf] at hv; cases hv; rw [ho] at hg; cases hg; exact e1 rfl
  rw [hoth v v1, hno v v0] at hv; cases hv

end Usbip
