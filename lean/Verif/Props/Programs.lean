import Verif.Lemmas.Programs
import Verif.Props.Examples
/-!
# What the example programs deliver: C78
-/

namespace Usbip
open Spec Samples

theorem exampleKeyboard_ok (p : Profile) : ∃ d f e, exampleKeyboard p = .ok d ∧
    keyboardProgram p = some (Sys.init [d] (freshWorld Keyboard.new)) ∧
    endpointAt d 0x81 = some (e, some f) ∧ e.attributes.toNat = 3 ∧ e.address = 0x81 ∧ f.handler = 0 := by
  rcases p with ⟨_ | _, _ | _⟩ <;> exact ⟨_, _, _, rfl, rfl, rfl, rfl, rfl, rfl⟩

theorem exampleSerial_ok (p : Profile) : ∃ d f e, exampleSerial p = .ok d ∧
    serialProgram p = some (Sys.init [d] (freshWorld Cdc.new)) ∧
    endpointAt d 0x82 = some (e, some f) ∧ e.attributes.toNat = 2 ∧ e.address = 0x82 ∧ f.handler = 0 := by
  rcases p with ⟨_ | _, _ | _⟩ <;> exact ⟨_, _, _, rfl, rfl, rfl, rfl, rfl, rfl⟩

theorem keyboardFeed_push : Keyboard.push keyOne = keyboardFeed := rfl

theorem serialFeed_write : Cdc.write [97] = serialFeed := rfl

theorem keyboard_sys {p : Profile} {S : Sys (Unit × Keyboard)} (hS : keyboardProgram p = some S) {es : List ProgEvent}
    {s : Sys (Unit × Keyboard)} (hs : progRun keyboardObj keyboardFeed p (keyboardProgram p) es = some s) :
    s = S.run (hosting keyboardObj 0 noHandlers) p ((es.map ProgEvent.keyboard).map (HostedEvent.event Keyboard.push)) := by
  rw [hS] at hs
  exact progRun_sys keyboardObj keyboardFeed Keyboard.push keyOne ProgEvent.keyboard keyboardFeed_push
    (fun _ _ => rfl) (fun _ _ => rfl) (fun _ => rfl) rfl p es S s hs

theorem serial_sys {p : Profile} {S : Sys (Unit × Cdc)} (hS : serialProgram p = some S) {es : List ProgEvent}
    {s : Sys (Unit × Cdc)} (hs : progRun serialObj serialFeed p (serialProgram p) es = some s) :
    s = S.run (hosting serialObj 0 noHandlers) p ((es.map ProgEvent.serial).map (HostedEvent.event Cdc.write)) := by
  rw [hS] at hs
  exact progRun_sys serialObj serialFeed Cdc.write [97] ProgEvent.serial serialFeed_write
    (fun _ _ => rfl) (fun _ _ => rfl) (fun _ => rfl) rfl p es S s hs

theorem no_table_events {α τ} (g : ProgEvent → HostedEvent Unit α) (act : α → τ → τ) (a : α)
    (h1 : ∀ c i, g (.connect c i) = .server (.connect c i)) (h2 : ∀ c w, g (.iterate c w) = .server (.iterate c w))
    (h3 : ∀ c, g (.cancel c) = .server (.cancel c)) (h4 : g .tick = .app a) (es : List ProgEvent) :
    ∀ e ∈ (es.map g).map (HostedEvent.event act), (∀ d, e ≠ .addDevice d) ∧ ∀ id, e ≠ .removeDevice id := by
  intro e he
  obtain ⟨e', he', rfl⟩ := List.mem_map.mp he
  obtain ⟨e'', _, rfl⟩ := List.mem_map.mp he'
  cases e'' with
  | connect c i => rw [h1]; exact ⟨fun _ h => by simp [HostedEvent.event] at h, fun _ h => by simp [HostedEvent.event] at h⟩
  | iterate c w => rw [h2]; exact ⟨fun _ h => by simp [HostedEvent.event] at h, fun _ h => by simp [HostedEvent.event] at h⟩
  | cancel c => rw [h3]; exact ⟨fun _ h => by simp [HostedEvent.event] at h, fun _ h => by simp [HostedEvent.event] at h⟩
  | tick => rw [h4]; exact ⟨fun _ h => by simp [HostedEvent.event] at h, fun _ h => by simp [HostedEvent.event] at h⟩

/-- A submit for the endpoint reaches the handler. -/
theorem urb_of_job {σ} {w : World σ} {j : Job} {n : Nat} {a : UInt8} {e : Endpoint} {f : Iface}
    (hd : j.header.direction.toNat = 1) (hn : j.header.ep.toNat = n)
    (ha : UInt8.ofNat (n % 128 + 128) = a) (he : endpointAt j.device a = some (e, some f))
    (h1 : e.attributes.toNat ≠ 0) (h2 : e.attributes.toNat ≤ 3) (hh : f.handler = 0) (hw : w.ifPoisoned 0 = false) :
    j.urb 0 w = some (e, setupAt j.setup) := by
  have hadr : j.address = a := by
    unfold Job.address
    rw [if_neg (by omega), hn, ha]
  unfold Job.urb Job.call
  rw [hadr, he]
  dsimp only
  unfold addressee
  rw [if_neg h1, if_pos h2]
  simp only [Option.map_some, hh, hw, and_self, if_true]

/-- C78: over any run of the keyboard example, whatever clients do: if every poll was made in IN
direction and its reply could be sent, the reports the clients received are the beginning of "key 1
pressed, released" repeated once for every second the program has been running. -/
theorem C78_keyboard (p : Profile) (es : List ProgEvent)
    (hall : ∀ r ∈ polled p es, r.direction = 1 ∧ r.write = .full) :
    ∃ m, ((polled p es).map Sent.data).filter (fun b => !b.isEmpty) = (typing (seconds es)).take m := by
  obtain ⟨d, f, e, _, hS, _⟩ := exampleKeyboard_ok p
  unfold polled at hall ⊢
  rw [hS] at hall ⊢
  obtain ⟨m, hm⟩ := C58_fifo noHandlers 0 p [d] (freshWorld Keyboard.new) rfl (es.map ProgEvent.keyboard) hall
  exact ⟨m, by rw [hm, typed_keyboard, script_typing]⟩

/-- C78: a client that has the keyboard and polls its endpoint gets the first report that nobody has
received yet, or an empty reply if there is none (the program has to be running and its keyboard not
crashed, see C60; polls before have to be made in IN direction and answered). -/
theorem C78_keyboard_poll (p : Profile) (es : List ProgEvent) (s : Sys (Unit × Keyboard)) (c : Nat) (id : Bytes)
    (x : Conn) (ids : Bytes) (len : Nat) (setup data rest : Bytes)
    (hs : progRun keyboardObj keyboardFeed p (keyboardProgram p) es = some s)
    (hw : s.shared.world.ifPoisoned 0 = false)
    (hall : ∀ r ∈ polled p es, r.direction = 1 ∧ r.write = .full)
    (hx : s.conns c = some x) (hr : x.status = .running) (hc : x.current = some id)
    (hp : parse p.debugAssertions x.input.bytes = .request (.transfer ids 1 1 len setup data) rest) :
    ∃ s', progRun keyboardObj keyboardFeed p (keyboardProgram p) (es ++ [.iterate c .full]) = some s' ∧
      (newlySent s s' c).drop 48 = (typing (seconds es)).getD
        (((polled p es).map Sent.data).filter (fun b => !b.isEmpty)).length [] ∧
      ((newlySent s s' c).drop 20).take 8 = [0, 0, 0, 0] ++ bigEndian 4 ((newlySent s s' c).drop 48).length := by
  obtain ⟨d, f, e, _, hS, he, ha, had, hh⟩ := exampleKeyboard_ok p
  have hsys := keyboard_sys hS hs
  have hold : Holds s c id := ⟨x, hx, hr, hc⟩
  have hg : amGet id s.shared.used = some d := by
    rw [hsys] at hold ⊢
    exact only_device _ p d _ _ (no_table_events ProgEvent.keyboard Keyboard.push keyOne (fun _ _ => rfl)
      (fun _ _ => rfl) (fun _ => rfl) rfl es) c id hold
  obtain ⟨j, hj, hjd, hdir, hep⟩ := job_of_parse p s c x id d ids 1 1 len setup data rest hx hr hc hg hp
  have hu : j.urb 0 s.shared.world = some (e, setupAt j.setup) :=
    urb_of_job hdir hep rfl (by rw [hjd]; exact he) (by omega) (by omega) hh hw
  refine ⟨s.step (hosting keyboardObj 0 noHandlers) p (.iterate c .full), ?_, ?_⟩
  · rw [progRun_snoc, hs]; rfl
  have hobs : observe (hosting keyboardObj 0 noHandlers) Keyboard.push 0 p s (.server (.iterate c .full)) =
      some (.urb e (setupAt j.setup), some ⟨e, j.header.direction, .full,
        newlySent s (s.step (hosting keyboardObj 0 noHandlers) p (.iterate c .full)) c⟩) := by
    simp only [observe, hj, hu]
    rfl
  generalize hout : newlySent s (s.step (hosting keyboardObj 0 noHandlers) p (.iterate c .full)) c = out at hobs ⊢
  have hdi : DataIn e := by unfold DataIn; rw [had]; decide
  have hsn := observations_snoc (hosting keyboardObj 0 noHandlers) Keyboard.push 0 p (es.map ProgEvent.keyboard)
    (.server (.iterate c .full)) (Sys.init [d] (freshWorld Keyboard.new))
  rw [← hsys, hobs] at hsn
  have hrep : keyboardReplies noHandlers 0 p (Sys.init [d] (freshWorld Keyboard.new))
      (es.map ProgEvent.keyboard ++ [.server (.iterate c .full)]) =
      polled p es ++ [⟨e, j.header.direction, .full, out⟩] := by
    unfold keyboardReplies polled
    rw [hS, hsn]
    simp only [Option.toList_some, List.filterMap_append, List.filterMap_cons, List.filterMap_nil, List.filter_append,
      keyboardReplies]
    rw [List.filter_cons_of_pos (by simpa using hdi), List.filter_nil]
  have hops : keyboardOps noHandlers 0 p (Sys.init [d] (freshWorld Keyboard.new))
      (es.map ProgEvent.keyboard ++ [.server (.iterate c .full)]) =
      keyboardOps noHandlers 0 p (Sys.init [d] (freshWorld Keyboard.new)) (es.map ProgEvent.keyboard) ++
        [.urb e (setupAt j.setup)] := by
    unfold keyboardOps
    rw [hsn]
    simp only [Option.toList_some, List.map_append, List.map_cons, List.map_nil, keyOp]
  have h58 := C58_replies noHandlers 0 p [d] (freshWorld Keyboard.new) rfl
    (es.map ProgEvent.keyboard ++ [.server (.iterate c .full)])
  have h58' := C58_replies noHandlers 0 p [d] (freshWorld Keyboard.new) rfl (es.map ProgEvent.keyboard)
  rw [hrep, hops, expected_snoc _ _ _ hdi] at h58
  have hpol : keyboardReplies noHandlers 0 p (Sys.init [d] (freshWorld Keyboard.new)) (es.map ProgEvent.keyboard) =
      polled p es := by unfold polled; rw [hS]
  rw [hpol] at h58'
  have hall' : (polled p es).map Sent.data =
      expected codeUp [] 0 (keyboardOps noHandlers 0 p (Sys.init [d] (freshWorld Keyboard.new)) (es.map ProgEvent.keyboard)) :=
    pointwise_eq (pointwise_imp h58' (fun r b hm _ hc => (hc.2 (hall r hm).1 (hall r hm).2).1))
  have hlast : ∀ {l m : List _} {a b} {R : Sent → Bytes → Prop}, Pointwise R (l ++ [a]) (m ++ [b]) → R a b := by
    intro l
    induction l with
    | nil =>
      intro m a b R h
      cases m with
      | nil => cases h; assumption
      | cons y m => cases h; rename_i hs; cases m <;> cases hs
    | cons z l ih =>
      intro m a b R h
      cases m with
      | nil => cases h; rename_i hs; cases l <;> cases hs
      | cons y m => cases h; rename_i hs; exact ih hs
  have hfin := (hlast h58).2 (u32_ext (by rw [hdir]; rfl)) rfl
  rw [queued_typed, typed_keyboard, List.nil_append, script_typing, Nat.zero_add, ← hall'] at hfin
  refine ⟨hfin.1, ?_⟩
  rw [show ((out.drop 48).length) = _ from congrArg List.length hfin.1]
  exact hfin.2

/-- C78: over any run of the serial example, whatever clients do, as long as they only use the data
endpoints, in IN direction for reading, and their replies can be sent: what clients have received,
in order, and what is still buffered are together one "a" for every second. -/
theorem C78_serial (p : Profile) (es : List ProgEvent) (s : Sys (Unit × Cdc)) (hlen : seconds es < 4294967296)
    (hs : progRun serialObj serialFeed p (serialProgram p) es = some s)
    (hep : ∀ r ∈ receivedAll p es, r.ep.attributes.toNat = 2 ∨ r.ep.attributes.toNat = 3 ∨ r.ep.address.toNat < 128)
    (hall : ∀ r ∈ received p es, r.direction = 1 ∧ r.write = .full) :
    (received p es).flatMap Sent.data ++ s.shared.world.user.2.txBuffer = List.replicate (seconds es) 97 := by
  obtain ⟨d, f, e, _, hS, _⟩ := exampleSerial_ok p
  have hsys := serial_sys hS hs
  unfold received at hall ⊢
  unfold receivedAll at hep
  rw [hS] at hall hep ⊢
  rw [hsys, ← spoken_serial]
  exact C59_exactly_once noHandlers 0 p [d] (freshWorld Cdc.new) rfl _ (by rw [spoken_serial]; simpa using hlen) hep hall

/-- C78: a client that has the serial port and reads from it gets one "a" for every second that nobody
has received the "a" of (same conditions). -/
theorem C78_serial_read (p : Profile) (es : List ProgEvent) (s : Sys (Unit × Cdc)) (c : Nat) (id : Bytes)
    (x : Conn) (ids : Bytes) (len : Nat) (setup data rest : Bytes) (hlen : seconds es < 4294967296)
    (hs : progRun serialObj serialFeed p (serialProgram p) es = some s)
    (hep : ∀ r ∈ receivedAll p es, r.ep.attributes.toNat = 2 ∨ r.ep.attributes.toNat = 3 ∨ r.ep.address.toNat < 128)
    (hall : ∀ r ∈ received p es, r.direction = 1 ∧ r.write = .full)
    (hx : s.conns c = some x) (hr : x.status = .running) (hc : x.current = some id)
    (hp : parse p.debugAssertions x.input.bytes = .request (.transfer ids 1 2 len setup data) rest) :
    ∃ s', progRun serialObj serialFeed p (serialProgram p) (es ++ [.iterate c .full]) = some s' ∧
      (newlySent s s' c).drop 48 =
        List.replicate (seconds es - ((received p es).flatMap Sent.data).length) 97 ∧
      ((newlySent s s' c).drop 20).take 8 = [0, 0, 0, 0] ++ bigEndian 4 ((newlySent s s' c).drop 48).length := by
  have h1 := C78_serial p es s hlen hs hep hall
  obtain ⟨d, f, e, _, hS, he, ha, had, hh⟩ := exampleSerial_ok p
  have hsys := serial_sys hS hs
  have hw : s.shared.world.ifPoisoned 0 = false := by
    cases hw : s.shared.world.ifPoisoned 0 with
    | false => rfl
    | true =>
      obtain ⟨s1, h⟩ := C60_serial p (es ++ [.tick])
      rw [progRun_snoc, hs] at h
      simp [progStep, hw] at h
  have hold : Holds s c id := ⟨x, hx, hr, hc⟩
  have hg : amGet id s.shared.used = some d := by
    rw [hsys] at hold ⊢
    exact only_device _ p d _ _ (no_table_events ProgEvent.serial Cdc.write [97] (fun _ _ => rfl)
      (fun _ _ => rfl) (fun _ => rfl) rfl es) c id hold
  obtain ⟨j, hj, hjd, hdir, hep'⟩ := job_of_parse p s c x id d ids 1 2 len setup data rest hx hr hc hg hp
  have hu : j.urb 0 s.shared.world = some (e, setupAt j.setup) :=
    urb_of_job hdir hep' rfl (by rw [hjd]; exact he) (by omega) (by omega) hh hw
  have hs' : progRun serialObj serialFeed p (serialProgram p) (es ++ [.iterate c .full]) =
      some (s.step (hosting serialObj 0 noHandlers) p (.iterate c .full)) := by rw [progRun_snoc, hs]; rfl
  refine ⟨_, hs', ?_⟩
  have hobs : observe (hosting serialObj 0 noHandlers) Cdc.write 0 p s (.server (.iterate c .full)) =
      some (.urb e (setupAt j.setup), some ⟨e, j.header.direction, .full,
        newlySent s (s.step (hosting serialObj 0 noHandlers) p (.iterate c .full)) c⟩) := by
    simp only [observe, hj, hu]
    rfl
  have hst := step_observed serialObj Cdc.write 0 noHandlers p s (.server (.iterate c .full))
  rw [hobs] at hst
  obtain ⟨r, hr1, _, _, hr4, _⟩ := hst
  obtain rfl := Option.some.inj hr1
  have hobj : (serialObj e (setupAt j.setup) s.shared.world.user.2).1 = .ok s.shared.world.user.2.txBuffer := by
    unfold serialObj Cdc.handleUrb
    rw [if_neg (fun h => by rw [h] at ha; exact absurd ha (by decide))]
    unfold Endpoint.direction
    rw [had]
    rfl
  have htx : s.shared.world.user.2.txBuffer =
      List.replicate (seconds es - ((received p es).flatMap Sent.data).length) 97 := by
    have := congrArg (List.drop ((received p es).flatMap Sent.data).length) h1
    rwa [List.drop_left, List.drop_replicate] at this
  rw [hobj, htx] at hr4
  have hfin := hr4.2 (.inl (u32_ext (by rw [hdir]; rfl))) rfl (by rw [List.length_replicate]; omega)
  refine ⟨hfin.1, ?_⟩
  rw [show ((newlySent s (s.step (hosting serialObj 0 noHandlers) p (.iterate c .full)) c).drop 48).length = _
    from congrArg List.length hfin.1]
  exact hfin.2.2

/-- C78: the devices of the two example programs, as their clients see them when they ask for the
configuration: one interface, HID with one interrupt IN endpoint 1, 8 bytes every 10, resp. CDC ACM
with an interrupt IN endpoint 1 and bulk endpoints 2 in both directions, 512 bytes each. -/
theorem C78_descriptors {σ} (p : Profile) (env : Env σ) (len : UInt32) (index length : UInt16) (data : Bytes)
    (w : World σ) :
    (∃ d, keyboardProgram p = some (Sys.init [d] (freshWorld Keyboard.new)) ∧
      (d.handleUrb env p d.ep0In none len ⟨0x80, 6, 0x200, index, length⟩ data w).1 = .ok (List.take length.toNat
        [9, 2, 34, 0, 1, 1, 1, 128, 50,
         9, 4, 0, 0, 1, 3, 0, 0, 5,
         9, 33, 17, 1, 0, 1, 34, 45, 0,
         7, 5, 0x81, 3, 8, 0, 10])) ∧
    (∃ d, serialProgram p = some (Sys.init [d] (freshWorld Cdc.new)) ∧
      (d.handleUrb env p d.ep0In none len ⟨0x80, 6, 0x200, index, length⟩ data w).1 = .ok (List.take length.toNat
        [9, 2, 48, 0, 1, 1, 1, 128, 50,
         9, 4, 0, 0, 3, 2, 2, 0, 5,
         5, 36, 0, 16, 1,
         4, 36, 2, 0,
         7, 5, 0x81, 3, 8, 0, 10,
         7, 5, 0x82, 2, 0, 2, 0,
         7, 5, 0x02, 2, 0, 2, 0])) := by
  constructor
  · obtain ⟨d, _, _, h1, h2, _⟩ := exampleKeyboard_ok p
    refine ⟨d, h2, ?_⟩
    have h3 : (d.handleUrb env p d.ep0In none len ⟨0x80, 6, 0x200, index, length⟩ data w).1 =
        .ok (clip d.configDescriptor length) := by
      have he : EndpointAttributes.fromU8 d.ep0In.attributes = some .control ∧ d.ep0In.direction = .in := by
        clear h2
        revert h1
        rcases p with ⟨_ | _, _ | _⟩ <;> (intro h1; obtain rfl := Outcome.ok.inj h1; exact ⟨rfl, rfl⟩)
      unfold Device.handleUrb
      rw [he.1, he.2]
      dsimp only
      rw [if_pos ⟨rfl, by decide⟩]
      unfold Device.getDescriptor
      dsimp only
      rw [show DescriptorType.fromU16 ((0x200 : UInt16) >>> 8) = some .configuration by decide]
    clear h2
    rw [h3, clip_take]
    · revert h1; clear h3; rcases p with ⟨_ | _, _ | _⟩ <;> (intro h1; obtain rfl := Outcome.ok.inj h1; rfl)
    · revert h1; clear h3; rcases p with ⟨_ | _, _ | _⟩ <;> (intro h1; obtain rfl := Outcome.ok.inj h1; decide)
  · obtain ⟨d, _, _, h1, h2, _⟩ := exampleSerial_ok p
    refine ⟨d, h2, ?_⟩
    have h3 : (d.handleUrb env p d.ep0In none len ⟨0x80, 6, 0x200, index, length⟩ data w).1 =
        .ok (clip d.configDescriptor length) := by
      have he : EndpointAttributes.fromU8 d.ep0In.attributes = some .control ∧ d.ep0In.direction = .in := by
        clear h2
        revert h1
        rcases p with ⟨_ | _, _ | _⟩ <;> (intro h1; obtain rfl := Outcome.ok.inj h1; exact ⟨rfl, rfl⟩)
      unfold Device.handleUrb
      rw [he.1, he.2]
      dsimp only
      rw [if_pos ⟨rfl, by decide⟩]
      unfold Device.getDescriptor
      dsimp only
      rw [show DescriptorType.fromU16 ((0x200 : UInt16) >>> 8) = some .configuration by decide]
    clear h2
    rw [h3, clip_take]
    · revert h1; clear h3; rcases p with ⟨_ | _, _ | _⟩ <;> (intro h1; obtain rfl := Outcome.ok.inj h1; rfl)
    · revert h1; clear h3; rcases p with ⟨_ | _, _ | _⟩ <;> (intro h1; obtain rfl := Outcome.ok.inj h1; decide)

/-- What a client reads in the list about the device of an example program whose interface has class
`cls`, subclass `sub`: bus id "0-0-0", bus and device number 0, high speed (3), no vendor, product and
version, one configuration, number 1, one interface. -/
def exampleRecord (cls sub : UInt8) : Bytes :=
  ascii "/sys/bus/0/0/0" ++ List.replicate 242 0 ++ ascii "0-0-0" ++ List.replicate 27 0 ++
  [0, 0, 0, 0, 0, 0, 0, 0, 0, 0, 0, 3] ++ [0, 0, 0, 0, 0, 0, 0, 0, 0, 1, 1, 1] ++ [cls, sub, 0, 0]

/-- The device descriptor of both: no USB version, endpoint 0 with 64 bytes, the strings 2, 3 and 4. -/
def exampleDescriptor : Bytes := [18, 1, 0, 0, 0, 0, 0, 64, 0, 0, 0, 0, 0, 0, 2, 3, 4, 1]

set_option maxRecDepth 8000 in
/-- C78: what the list of devices and the device descriptor say about the two devices. -/
theorem C78_records {σ} (p : Profile) (env : Env σ) (len : UInt32) (index length : UInt16) (data : Bytes)
    (w : World σ) :
    (∃ d, keyboardProgram p = some (Sys.init [d] (freshWorld Keyboard.new)) ∧
      d.toBytesWithInterfaces p = .ok (exampleRecord 3 0) ∧
      (d.handleUrb env p d.ep0In none len ⟨0x80, 6, 0x100, index, length⟩ data w).1 =
        .ok (exampleDescriptor.take length.toNat)) ∧
    (∃ d, serialProgram p = some (Sys.init [d] (freshWorld Cdc.new)) ∧
      d.toBytesWithInterfaces p = .ok (exampleRecord 2 2) ∧
      (d.handleUrb env p d.ep0In none len ⟨0x80, 6, 0x100, index, length⟩ data w).1 =
        .ok (exampleDescriptor.take length.toNat)) := by
  have key : ∀ d : Device, EndpointAttributes.fromU8 d.ep0In.attributes = some .control ∧ d.ep0In.direction = .in →
      d.deviceDescriptor = exampleDescriptor →
      (d.handleUrb env p d.ep0In none len ⟨0x80, 6, 0x100, index, length⟩ data w).1 =
        .ok (exampleDescriptor.take length.toNat) := by
    intro d he hx
    unfold Device.handleUrb
    rw [he.1, he.2]
    dsimp only
    rw [if_pos ⟨rfl, by decide⟩]
    unfold Device.getDescriptor
    dsimp only
    rw [show DescriptorType.fromU16 ((0x100 : UInt16) >>> 8) = some .device by decide]
    dsimp only
    rw [hx, clip_take _ _ (by decide)]
  constructor
  · obtain ⟨d, _, _, h1, h2, _⟩ := exampleKeyboard_ok p
    refine ⟨d, h2, ?_, key d ?_ ?_⟩
    all_goals
      clear h2 key
      revert h1
      rcases p with ⟨_ | _, _ | _⟩ <;> (intro h1; obtain rfl := Outcome.ok.inj h1; first | rfl | exact ⟨rfl, rfl⟩)
  · obtain ⟨d, _, _, h1, h2, _⟩ := exampleSerial_ok p
    refine ⟨d, h2, ?_, key d ?_ ?_⟩
    all_goals
      clear h2 key
      revert h1
      rcases p with ⟨_ | _, _ | _⟩ <;> (intro h1; obtain rfl := Outcome.ok.inj h1; first | rfl | exact ⟨rfl, rfl⟩)

/-- A client that imports the keyboard and asks for `requests`. -/
def attaching (requests : Bytes) : ProgEvent :=
  .connect 3 ⟨[1, 17, 0x80, 3, 0, 0, 0, 0] ++ ([48, 45, 48, 45, 48] ++ List.replicate 27 0) ++ requests, .unexpectedEof⟩

/-- An IN transfer of endpoint `ep`. -/
def inTransfer (ep : UInt8) : Bytes :=
  be32 1 ++ be32 9 ++ be32 0 ++ be32 1 ++ [0, 0, 0, ep] ++ be32 0 ++ be32 64 ++ be32 0 ++ be32 0 ++ be32 10 ++
    List.replicate 8 0

/-- Two seconds, a poll in between, another afterwards: key 1 pressed, released; what follows is the
next press. -/
def someTyping : List ProgEvent :=
  [attaching (inTransfer 1 ++ inTransfer 1 ++ inTransfer 1), .iterate 3 .full, .tick, .iterate 3 .full, .tick,
    .iterate 3 .full]

set_option maxRecDepth 100000 in
example : (polled dev someTyping).map Sent.data = [[0, 0, 30, 0, 0, 0, 0, 0], [0, 0, 0, 0, 0, 0]] ∧
    seconds someTyping = 2 ∧ ∀ r ∈ polled dev someTyping, r.direction = 1 ∧ r.write = .full := by
  decide +kernel

set_option maxRecDepth 100000 in
/-- The conditions of `C78_keyboard_poll`. -/
example : ∃ s x, progRun keyboardObj keyboardFeed dev (keyboardProgram dev) someTyping = some s ∧
    s.shared.world.ifPoisoned 0 = false ∧ s.conns 3 = some x ∧ x.status = .running ∧
    x.current = some [48, 45, 48, 45, 48] ∧
    parse dev.debugAssertions x.input.bytes =
      .request (.transfer [0, 0, 0, 9, 0, 0, 0, 0, 0, 0, 0, 1, 0, 0, 0, 1] 1 1 64 (List.replicate 8 0) []) [] :=
  ⟨_, _, rfl, rfl, rfl, rfl, rfl, rfl⟩

/-- Three seconds, a read after the second. -/
def someWaiting : List ProgEvent :=
  [attaching (inTransfer 2 ++ inTransfer 2), .tick, .iterate 3 .full, .tick, .iterate 3 .full, .tick]

set_option maxRecDepth 100000 in
example : (received dev someWaiting).map Sent.data = [[97, 97]] ∧ seconds someWaiting = 3 ∧
    (∀ r ∈ received dev someWaiting, r.direction = 1 ∧ r.write = .full) ∧
    ∀ r ∈ receivedAll dev someWaiting,
      r.ep.attributes.toNat = 2 ∨ r.ep.attributes.toNat = 3 ∨ r.ep.address.toNat < 128 := by
  decide +kernel

set_option maxRecDepth 100000 in
/-- The conditions of `C78_serial_read`. -/
example : ∃ s x, progRun serialObj serialFeed dev (serialProgram dev) someWaiting = some s ∧
    s.conns 3 = some x ∧ x.status = .running ∧ x.current = some [48, 45, 48, 45, 48] ∧
    parse dev.debugAssertions x.input.bytes =
      .request (.transfer [0, 0, 0, 9, 0, 0, 0, 0, 0, 0, 0, 1, 0, 0, 0, 2] 1 2 64 (List.replicate 8 0) []) [] :=
  ⟨_, _, rfl, rfl, rfl, rfl, rfl⟩

end Usbip
