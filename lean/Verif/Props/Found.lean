import Verif.Lemmas.Found
import Verif.Lemmas.AttendedSample
/-!
# What a Linux host finds out about a device (C95)

A process that exports a device, and a Linux host that has attached it: what the host's USB core is given comes from that device; and
what it reads of the descriptors is what was said when the device was built.
-/

namespace Usbip
open Spec Samples

section
variable {τ : Type} {code : Code τ} {env : Env (HandlerId → τ)} {p : Profile} {devices : List Device} {dev : Device}
  {w : World (HandlerId → τ)}
  {e : MachineExec code env p (Machine.init code devices w)} {c : Nat} {busid : Bytes} {devid : UInt32} {d : Nat → Driver}

/-- C95: every transfer that is given back to the host is what the device it has asked for says to it, whatever else the process
exports and whoever else is connected. -/
theorem C95_said (hb : Behaves code env) (ha : Alongside e c busid devid d) (hE : Exported e devices dev busid) :
    ∃ log, Exchanged e c d log ∧ ∀ n, (∀ e ∈ log n, Modest e.2.1) → (d n).phase ≠ .broken →
      ∀ g ∈ (d n).done, SaidTo env p dev g := by
  obtain ⟨log, h1, h2, _⟩ := found hb ha hE
  exact ⟨log, h1, fun n hm hp => (h2 n hm hp).2⟩

/-- C95: a host that reads a descriptor is given the descriptor, or the part of it that it has asked for; or an error, if the device
has no such string.  (`atMost`: the length of a descriptor is seen modulo 65536.) -/
theorem C95_descriptors (hb : Behaves code env) (ha : Alongside e c busid devid d) (hE : Exported e devices dev busid)
    (hc : dev.ep0In.address = 0x80 ∧ dev.ep0In.attributes = 0) :
    ∃ log, Exchanged e c d log ∧ ∀ n, (∀ e ∈ log n, Modest e.2.1) → (d n).phase ≠ .broken →
      ∀ g ∈ (d n).done, ∀ type index lang wLength, g.urb.AsksFor type index lang wLength →
        match descriptorOf dev type.toNat index.toNat with
        | some b => g.status = 0 ∧ g.data = atMost wLength.toNat b
        | none => g.status = 1 ∧ g.data = [] := by
  obtain ⟨log, h1, h2, _⟩ := found hb ha hE
  refine ⟨log, h1, fun n hm hp g hg type index lang wLength hask => ?_⟩
  exact saidTo_any hc ((h2 n hm hp).2 g hg) hask

/-- C95: a device that was built with the API is exported, and a Linux host has attached it.  At every moment, what the host has read
of its record and of its descriptors is what was said when the device was built.  And whatever it asks for, it is given some
time; unless the connection is gone, or a response did not fit its request. -/
theorem C95_learned (hb : Behaves code env) (ha : Alongside e c busid devid d) (hE : Exported e devices dev busid)
    {index : UInt32} {cs : List BuildCall} (hf : Names.initial.Fits (apiCalls cs)) (hbuild : Device.build p index cs = .ok dev)
    (hde : ((Plan.initial index).run cs).Describable) :
    ∃ log, Exchanged e c d log ∧
      (∀ n, (∀ e ∈ log n, Modest e.2.1) → (d n).phase ≠ .broken → (d n).Learned ((Plan.initial index).run cs)) ∧
      (Returns code → e.Fair →
        (∀ n t f i m k, (e.state n).whole.fine.cfg.flights t = some f → f.ev = .removeDevice i → f.code ≠ .lock .used m k) →
        Delivers e c d → ∀ n, (d n).phase = .attached →
        ∃ m, n ≤ m ∧ (((d m).Learned ((Plan.initial index).run cs) ∧
            ∀ q ∈ (d n).issued, ∃ g ∈ (d m).done, g.seq = q.1 ∧ g.urb = q.2) ∨
          (∃ e ∈ log m, ¬ Modest e.2.1) ∨ Overrun (log m) (d m).heard ∨ (e.state m).whole.ended c ≠ none ∨
          ∃ y, (e.state m).whole.fine.cfg.conns c = some y ∧ (y.status = .panicked ∨ e.Faulted c m y))) := by
  obtain ⟨d0, hd0, hbt⟩ := built_build p index cs hf
  rw [hbuild, Outcome.ok.injEq] at hd0
  subst hd0
  obtain ⟨log, h1, h2, h3⟩ := found hb ha hE
  have hl : ∀ n, (∀ e ∈ log n, Modest e.2.1) → (d n).phase ≠ .broken → (d n).Learned ((Plan.initial index).run cs) :=
    fun n hm hp => learned hbt hde (h2 n hm hp).1 (h2 n hm hp).2
  refine ⟨log, h1, hl, fun hret hfair hno hdel n hat => ?_⟩
  by_cases hm : ∀ e ∈ log n, Modest e.2.1
  rotate_left
  · refine ⟨n, Nat.le_refl _, .inr (.inl ?_)⟩
    exact Classical.byContradiction fun hn => hm fun e he => Classical.byContradiction fun h => hn ⟨e, he, h⟩
  obtain ⟨m, hnm, alt⟩ := C92_returned code env p devices w e c busid devid d hb hret hfair hno ha hdel log h1 n
    (.inl (h3 n hm hat))
  refine ⟨m, hnm, ?_⟩
  rcases alt with ⟨_, b2, b3⟩ | bad
  rotate_left
  · exact .inr bad
  by_cases hmod : ∀ e ∈ log m, Modest e.2.1
  rotate_left
  · exact .inr (.inl (Classical.byContradiction fun hn => hmod fun e he => Classical.byContradiction fun h => hn ⟨e, he, h⟩))
  refine .inl ⟨hl m hmod b2, fun q hq => ?_⟩
  obtain ⟨g, hg, rfl⟩ := List.mem_map.mp (b3.subset hq)
  exact ⟨g, hg, rfl, rfl⟩

end

/-! ## Cases -/

namespace Samples

/-- The device of `sampleSteps`. -/
def builtDev : Device := match Device.build dev 7 sampleSteps with
  | .ok d => d
  | _ => devA

theorem builtDev_build : Device.build dev 7 sampleSteps = .ok builtDev := by
  obtain ⟨d, h, _⟩ := C89_built dev 7 sampleSteps sampleSteps_fits
  rw [h, builtDev, h]

/-- A transfer that reads a descriptor. -/
def getting (type index : UInt8) (langLo langHi lo : UInt8) : Urb :=
  ⟨true, 0, 0, lo.toUInt32, 0, 0, 0, [0x80, 6, index, type, langLo, langHi, lo, 0], [], []⟩

/-- The device descriptor, the configuration (9 bytes, then all 51), the product, a string that is not there. -/
def lookup : List (UInt32 × Urb) :=
  [(8, getting 1 0 0 0 18), (9, getting 2 0 0 0 9), (10, getting 2 0 0 0 51), (11, getting 3 builtDev.stringProduct 9 4 255),
   (12, getting 3 200 9 4 255)]

theorem lookup_wf : ∀ q ∈ lookup, WellFormed true (q.2.cmd 65538 q.1) := by
  intro q hq
  simp only [lookup, List.mem_cons, List.not_mem_nil, or_false] at hq
  rcases hq with rfl | rfl | rfl | rfl | rfl <;> exact ⟨rfl, fun _ => Nat.le_refl 1, rfl, rfl, rfl⟩

theorem lookedUp : ∃ (e : MachineExec (oneShot keyboardObj) (oneEnv keyboardObj) dev
      (Machine.init (oneShot keyboardObj) [builtDev] (oneWorld Keyboard.new))) (d : Nat → Driver)
      (keys : Nat → List KeyReport) (n0 n1 n2 : Nat), Polled e d Keyboard.new lookup Keyboard.push [] keys n0 n1 n2 :=
  polled ⟨lookup_wf, by decide, by decide +kernel, by decide +kernel, by decide +kernel, by decide +kernel, by decide +kernel, by decide +kernel,
    by decide +kernel, rfl⟩ (by decide +kernel) _ _ rfl

/-- C95 on it: all hypotheses are met, and in the end the host has been given everything it has asked for; it knows the
vendor, the number of interfaces, and the product's name. -/
example : ∃ (e : MachineExec (oneShot keyboardObj) (oneEnv keyboardObj) dev
      (Machine.init (oneShot keyboardObj) [builtDev] (oneWorld Keyboard.new))) (d : Nat → Driver) (n1 n2 : Nat),
    Alongside e 0 busA 65538 d ∧ Behaves (oneShot keyboardObj) (oneEnv keyboardObj) ∧ Exported e [builtDev] builtDev busA ∧
    (builtDev.ep0In.address = 0x80 ∧ builtDev.ep0In.attributes = 0) ∧
    Names.initial.Fits (apiCalls sampleSteps) ∧ Device.build dev 7 sampleSteps = .ok builtDev ∧
    ((Plan.initial 7).run sampleSteps).Describable ∧ Returns (oneShot keyboardObj) ∧ e.Fair ∧
    (∀ n t f i m k, (e.state n).whole.fine.cfg.flights t = some f → f.ev = .removeDevice i → f.code ≠ .lock .used m k) ∧
    Delivers e 0 d ∧ (d n1).phase = .attached ∧ (d n1).issued = lookup ∧
    (getting 1 0 0 0 18).AsksFor 1 0 0 18 ∧ (getting 2 0 0 0 9).AsksFor 2 0 0 9 ∧ (getting 2 0 0 0 51).AsksFor 2 0 0 51 ∧
    (getting 3 builtDev.stringProduct 9 4 255).AsksFor 3 builtDev.stringProduct 0x409 255 ∧
    ∀ n, n2 ≤ n → (d n).phase = .attached ∧ (d n).done.map (fun g => (g.seq, g.urb)) = lookup ∧
      (d n).done.map (fun g => g.status) = [0, 0, 0, 0, 1] ∧
      ((d n).done[0]?.bind (fun g => readDevice g.data)).map (fun v => (v.idVendor, v.product)) =
        some (0x1234, builtDev.stringProduct.toNat) ∧
      (d n).done[1]?.map (fun g => wordAt g.data 2) = some 51 ∧
      ((d n).done[2]?.bind (fun g => readConfig g.data)).map (fun v => v.interfaces.length) = some 2 ∧
      (d n).done[3]?.bind (fun g => decodeStringDescriptor g.data) = some ['b'.toNat] := by
  obtain ⟨e, d, keys, n0, n1, n2, h⟩ := lookedUp
  refine ⟨e, d, n1, n2, h.alongside, oneShot_behaves _, ⟨h.sole.named, h.sole.single⟩, ?_,
    sampleSteps_fits, builtDev_build, sampleSteps_describable 7, oneShot_returns _, h.fair, h.noRemovals, h.delivers, ?_, ?_,
    ⟨rfl, rfl, by decide +kernel⟩, ⟨rfl, rfl, by decide +kernel⟩, ⟨rfl, rfl, by decide +kernel⟩, ⟨rfl, rfl, by decide +kernel⟩, fun n hn => ?_⟩
  · decide +kernel
  · rw [h.at1]; decide +kernel
  · rw [h.at1]; decide +kernel
  · rw [h.at2 n hn]; decide +kernel

end Samples

end Usbip
