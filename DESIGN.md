# Formal model of jiegec/usbip in Lean 4

The properties are in `properties.jsonl`, their status and theorem names in `MANIFEST.json`, the record of
the attempts to break the theorems with wrong programs in `seeded/LOG.jsonl`.

## Layout

* `lean/Verif/Model/*.lean` – the model, function by function. Every definition cites the file and lines it models.
* `lean/Verif/Spec/*.lean` – small, independent specifications: what a protocol client does with bytes, what
  UTF‑16LE means, what a descriptor sequence is, which handler a request is addressed to, what a deadlock is.
  `Spec/Dispatch.lean` (`said`) gives the whole of a device's answer to a transfer – descriptors from
  `Spec/Descriptor.lean`, everything else from the handler addressed – without using the model's lookup, setup
  parsing, descriptor building or `handle_urb`; statements about handler calls are phrased with it.
  `Spec/Hid.lean` is a host's reader of HID report descriptors and reports.
  `Spec/Cdc.lean` is a host's reader of CDC functional descriptors and a driver's requests.
  `Spec/Driver.lean` is the client side: a Linux host (`usbip attach` and `vhci_hcd`) written from memory of the Linux
  sources, which are not available here; its simplifications are in the header of the file.
  `Spec/Reference.lean` is a whole server written from the protocol description: its own request parser by offsets, its
  own reply records, `said` for transfers, a list of free devices and a holder per device. C76 says that the server
  cannot be told apart from it.
* `lean/Verif/Lemmas/*.lean` – helper lemmas.
* `lean/Verif/Props/*.lean` – the property theorems (`Cnn_...`), each with a concrete case that meets its hypotheses.
* `lean/Verif/Props/RepoTests.lean` – the unit tests of /repo evaluated on the model. They are tests of the model's
  fidelity, not properties; the model passes all of them.

| model file | models |
|---|---|
| `Basic` | outcomes (value, error, panic, non-termination), integer casts, big endian writing, build profile |
| `Consts` | src/consts.rs, src/endpoint.rs, src/setup.rs, src/interface.rs (data) |
| `Device` | src/device.rs: versions, construction, string slots, `find_ep`, `to_bytes`, `handle_urb` |
| `Protocol` | src/usbip_protocol.rs: reading commands, writing replies; byte sources (whole stream, segments) |
| `Hid`, `Cdc` | src/hid.rs, src/cdc.rs |
| `Util` | src/util.rs `verify_descriptor`, `MockSocket` (as a byte source) |
| `Host` | src/host.rs and the device builders of src/lib.rs over arbitrary libusb / nusb behaviour |
| `HostWindows` | src/host.rs: the nusb device handler as compiled on Windows |
| `Server` | src/lib.rs: `UsbIpServer`, `handler`, `add_device`, `remove_device`; histories of events |
| `Network` | the same on sockets that deliver bytes over time, with clients that react |
| `Locks` | the same at the level of lock requests, grants and releases |
| `Sockets` | `Locks` with sockets: bytes arrive and replies leave piece by piece, between any two steps of any task |
| `Mutex` | the same with handler code running step by step behind the handlers' mutexes |
| `Whole` | `Sockets` and `Mutex` together: everything above at once |
| `Listen` | src/lib.rs `server`: listening sockets, the accept loop, shutdown |
| `Machine` | `Whole` with the accept loop of `Listen` in front: a whole process |
| `Examples` | examples/hid_keyboard.rs, examples/cdc_acm_serial.rs; a bundled handler among arbitrary ones |
| `HostMutex` | src/host.rs step by step (libusb handlers), any number of handles beside other handler code |
| `NusbMutex` | src/host.rs step by step (nusb handlers, not on Windows), any number of devices beside other handler code |
| `Main` | examples/host.rs, hid_keyboard.rs, cdc_acm_serial.rs as processes: bind, accept loop, clients on sockets, main loop |

## How the code is modelled

* Bytes are `List UInt8`; `u8/u16/u32` are `UInt8/UInt16/UInt32` (wrap‑around is Rust's `as` cast);
  `usize` is `Nat` (64‑bit `usize`, no allocation failure).
* `Result`, panics and non‑termination are data: `Outcome α = ok a | err kind | panic | diverge`.
* The build profile is a parameter `Profile` (`debugAssertions`, `overflowChecks`); theorems quantify over it.
* Rust strings that are only compared / serialised (bus id, path) are their UTF‑8 bytes; strings in the
  string pool are lists of `Char` (Unicode scalar values, as in Rust).
* `HashMap<u8,String>` is a function `UInt8 → Option Str`; `HashMap<String,UsbDevice>` is an association list with
  replace-on-insert.
* `dyn UsbInterfaceHandler` / `dyn UsbDeviceHandler` objects are arbitrary: an `Env σ` gives, per handler number, a
  function on an arbitrary state `σ`. Mutex poisoning is modelled (a handler
  that panics is poisoned for good, and so is one whose mutex the application holds while it panics).
  HID, CDC, rusb and nusb handlers are also modelled as concrete handlers. `hosting` puts one concrete handler
  among arbitrary others (C58, C59), `sharing` and `sharingNusb` a whole host device (C69, C80).
* A socket's read side is a byte stream plus the way it ends (EOF or an error). `read_from_socket` is modelled
  generically over a byte source, so the same definition runs on a whole stream, on a source that delivers
  arbitrary segments (C03), and on a source that meters the memory asked for (C50).
* The server is a state machine: events are *connect*, *one loop iteration of a connection* (with the write
  succeeding, failing, or dropped with the task, after any number of bytes), *cancel a connection's task*, `add_device`, `remove_device`, *user
  code touching handler state* (and perhaps panicking with a handler's mutex held). Histories are arbitrary event lists.
* In `Network` bytes arrive piece by piece and an iteration waits while the command it reads is incomplete. C73 relates
  it to the histories above in both directions, so the history theorems carry over to interactive clients.
* The lock-level model (`Locks`) gives each task the lock requests, grants, critical sections and releases of the code,
  with tokio's fair queue (a request waits behind earlier ones). The critical section is the function of the atomic
  model. C35 relates its executions to the atomic histories in both directions (`C35_atomic`, `C35_transfer`,
  `C35_realised`), so the history theorems carry over; what management calls return is `C35_results`.
* `Sockets` has both: input arrives while tasks hold locks, a reply leaves in pieces with the locks held. C79 relates it
  to `Network` in both directions and to `Locks` with hindsight.
* In `Mutex` handler code is a program of its own: it runs step by step behind the handler's mutex while other tasks and
  the application go on. C75 relates it to the lock-level model in both directions.
* `Whole` has sockets and step-by-step handler code at once; C81 relates it to `Sockets` and so to everything else.
* `Listen` puts calls of `server` in front of `Network`: connections wait in the listener's queue until `accept` returns
  them, also after they have sent something. C82 relates it to `Network` in both directions.
* `Machine` has the accept loop and `Whole` at once: clients wait, speak and are accepted between any two steps of tasks
  and handler code. C91 relates it to `Whole` in both directions and to `Listen`. Shutting the runtime down is not one
  step there: it is dropping every call of `server` and every task, in some order.
* Infinite executions of `Whole` and `Machine` may come to rest (nothing happens any more); fairness says when. C105 derives
  the fairness of tasks for a runtime with any number of worker threads, which block in a handler's mutex and in handler code.
* The example programs (`Examples`): the server of the program plus the rounds of its main loop; the process ends
  when `main` panics. `Main` adds the spawned call of `server` (`Listen`) with its bind, and examples/host.rs.

## Simplifications

Each is also in the comment of the definition concerned.

* A management call (`add_device`, `remove_device`) dropped before it has its locks has done nothing.
* Handlers terminate, except in `Mutex`, `Whole` and `Machine`: C75_stalled, C81_stalled say what one that never returns does.
* In `Mutex` handler code touches nothing but its object (several handlers may share one), and takes the handler's
  mutex and the object's in one step.
* An application thread panics with at most one handler's mutex held (it may panic again).
* The application does not panic with the inner `Mutex<DeviceHandle>` of a shared libusb device locked.
* tokio's limit on the number of concurrent readers (2^29 or so) is ignored.
* `NusbUsbHostDeviceHandler` is modelled as built on systems other than Windows (`nusbDev`) and on Windows, where the calls are compiled out
  (`nusbDevWindows`); the theorems about whole servers with nusb devices use the former.
* The interface's class specific descriptor is read from the handler once, when the interface is built, as the code does.
* Except in `Listen` and `Machine`, `accept` in `server()` (src/lib.rs:527-549) is the *connect* event: any number of connections at any
  time. There the backlog of a listener has no limit (a limit would only say when a client can dial), and clients connect to a call of `server` rather than to an
  address (two calls cannot listen at one address).

## Per property

| id | modelled | proof |
|---|---|---|
| C01 | `Cmd.toBytes`, `readCommand` | symbolic evaluation of the reader over appended bytes |
| C02 | iterated `readCommand` | induction on the command list from C01 |
| C03 | `readCommand` over a segment source | simulation between sources, induction on segments |
| C04 | `readCommand` | case analysis on the first four bytes |
| C05 | `readCommand` on prefixes | monotonicity: reader on prefix vs. on full stream |
| C06 | `readCommand`, `Cmd.toBytes` | inversion of the reader |
| C07 | server step | case analysis; also stated on the raw request and reply bytes |
| C08 | `Resp.toBytes`, spec client decoder | symbolic evaluation; false for OUT replies with data |
| C09 | `Resp.toBytes`, spec list decoder | induction on devices and interfaces |
| C10 | `Device.toBytes` | offsets computed on appends |
| C11 | `SetupPacket.parse` | arithmetic |
| C12 | `handleUrb` control IN | arithmetic on u16 casts |
| C13 | configuration descriptor, `verifyDescriptor` | induction on interfaces / endpoints |
| C14 | string descriptor, UTF‑16 encode; spec UTF‑16 decode | induction on characters |
| C15 | `handleUrb`, server step | case analysis |
| C16 | string slot API | refinement to a record of named slots, induction on op lists |
| C17 | `newString` | induction on the scan |
| C18 | `findEp` | induction on lists |
| C19 | `handleUrb` with arbitrary handlers | case analysis against the spec `addressee`; frame on other handlers |
| C20 | `handleUrb` | exact case analysis (iff) |
| C21 | `handleUrb` | case analysis |
| C22–C25, C31, C53 | server state machine | invariants by induction over events |
| C26–C30, C32, C33 | server step | case analysis + induction over events |
| C34 | lock machine | invariant (lock order) and progress; refutation by a reachable stuck state |
| C49 | lock machine; infinite executions in which some clients stop reading | refutations by reachable stuck states; invariants on the queue (nobody overtakes a waiting writer); partial liveness under fairness |
| C35 | lock machine | refinement to atomic events, in commit order |
| C36–C38 | HID handler | induction over push/poll histories; report size from the descriptor, exactly every second one is wrong |
| C39–C41 | CDC handler, all handlers, server step | induction over histories; refutations by witness; C40, C41 equivalences via what the device says (`said`) |
| C42, C43 | rusb / nusb handlers over arbitrary library behaviour | case analysis |
| C44 | `verifyDescriptor` | induction both ways, all three outcomes |
| C45 | `Version.ofU16` | arithmetic iff |
| C46 | `format!` of decimal numbers | injectivity of decimal printing |
| C47 | server step on duplicates | symbolic execution of the five events for all devices |
| C48 | server step, spec client decoder | induction over commands |
| C50 | reader over a metering source | bound for complete packets; exact amount for submits; refutation by witness |
| C51 | `handleUrb` poisoning | case analysis, persistence by induction |
| C52 | host device construction | case analysis; refutation by witness for interfaces |
| C54, C55 | reader + server step | case analysis; refutations by witness |
| C56 | `handleUrb` control IN | the descriptors against blocks written down from the USB specification |
| C57 | server step, `usbip_ret_submit_success` | case analysis; equivalence; refutation |
| C58, C59 | server with a bundled handler among arbitrary others | simulation: the object sees the URBs in order, the wire carries its answers; then C36 / C39 |
| C60 | example programs | induction over runs; refutation by a run |
| C61 | lock queues | invariant: who gets a lock before a waiting program was before it in the queue |
| C62 | infinite executions of the lock-level model | fairness argument: holders let go, first in queue gets the lock, queue positions shrink; locks ordered used before available |
| C63 | lock-level programs | potential: steps left decreases with every step |
| C64, C65 | host device construction, descriptors | byte-level equality with descriptors computed from the host's data; refutations by witness |
| C66 | host device construction | case analysis over speeds |
| C67 | host interface handler behind `handleUrb` | composition of C19, C42 and C65; refutation by witness |
| C68 | server with arbitrary handlers, whole histories | simulation: each step is one handler invocation, one application action or neither |
| C69 | server with a shared libusb device among arbitrary handlers | C68's simulation composed with C42 |
| C70 | server with two families of handlers, a client and its device alone | simulation between the two systems, invariant C22 |
| C71 | server, log of each connection; device the client was told of last | invariant over histories, on top of C22 |
| C72 | whole path: client bytes, commands, submits, descriptors, reply bytes; decoder of descriptor trees | C02, C48 (conversation), C71, block walk by induction on the interfaces |
| C73 | sockets delivering bytes over time; clients as arbitrary reactions | readers agree on what has arrived or wait (`Early`); simulation by the history with hindsight (`Foresees`) |
| C74 | one iteration in a reachable state; every failing assertion of reading and writing | C20, invariants of the server, inversion of the reader for panics |
| C75 | handler code as arbitrary step programs behind mutexes, any interleaving | simulation by the lock-level model with invocations in progress undone (`Abs`); invariant of the mutexes (`MInv`); what each program does at its `commit` (`Covered`) |
| C76 | whole server, atomic, interactive and lock-level | simulation (`Tracks`, `TracksNet`) by the reference server; its parser agrees with the readers on every byte string (`parse_read`) |
| C77 | construction of servers from host devices | totality of each constructor step; at most three strings, so always a free index; induction over the enumeration |
| C78 | the example programs | program histories as server histories; refinement to the keyboard and serial specifications; the sole device stays the sole device |
| C79 | tasks, locks and sockets together | invariant (`TInv`): with hindsight (`hearing`) an execution of the lock-level model, whose events are an interactive history; a program run alone (`tcp_alone`) for the converse |
| C80 | devices shared through nusb, over histories | as C69: one step (`step_nusb`) from the traced step of C68 and the handlers of C43; induction over histories |
| C81 | handler code, tasks, locks and sockets together | simulation by the socket model with invocations in progress undone (`whole_reach`, with `Abs`, `MInv` of C75); lifting of socket executions (`lift_all`) |
| C82 | the accept loop | invariant (`PInv`) and simulation by interactive histories (`PInv.net_run`); relation of two runs with and without a dropped call (`But`) |
| C83 | what arrives is answered | weak fairness per task, socket and client; operations are well-founded (`completes` on `Run`, the projection to programs), then a loop turn (`Spec.TcpExec.next`), induction over the requests (`served_all`) |
| C84 | the same while handler code runs step by step | every execution of `Whole` has one of `Tcp` behind it with the same labels (`Behind`, built step by step from C81's simulation); fairness carries over (`Behind.fair`: code that returns leaves its mutex, `Behind.leaves`; the mutex becomes free, `Behind.frees`; a waiting call gets it, strong fairness) |
| C85 | the examples as processes | simulation by the programs of C78 (`main_sim`, `main_program`), which hold for what has arrived by hindsight (`foresees_all`); inductions on the history for bind and accept |
| C86 | libusb devices with any library, the handle's mutex, src/host.rs step by step | induction on the history with a run of the library (`hostRun`) that dies; instance of C81's handler code (`hostCode_at`) |
| C87 | the keyboard read by a host that knows HID | a reader of report descriptors and reports written from the HID specification (`Spec/Hid.lean`); its reading of a report by arithmetic on bits for all events; composition with C58 for histories and texts, with one traced step for the control requests |
| C88 | the length in replies to OUT transfers | case analysis of one loop iteration; one traced step (C58) for the serial port |
| C89 | a device built with the API against what was said about it (Spec/Build.lean) | refinement of the builder by a plan without string numbers, invariant of C16; reader of C72 |
| C90 | the serial port used by a host that knows CDC ACM | a reader of functional descriptors written from the CDC and PSTN specifications (`Spec/Cdc.lean`), on top of C89; one traced step (C58) for setup requests; C59 for the text, with an invariant that says from which devices requests come |
| C91 | a whole process: accept loop, tasks, locks, sockets, handler code | invariant (`KInv`): an execution of C81 with the labels of `accept` spelled out, and a history of C82; every infinite execution has one of C84 inside (`Within`), fairness carries over; queues shrink (`accepted_in_turn`) |
| C92 | a process with a Linux host as client | the host is a machine of its own (`Spec/Driver.lean`) that runs beside an execution of C91 and sees only bytes; a log of requests and responses (`Exchanged`) from C91's history; invariant of the host against the log (`DInv`, Lemmas/DriverStep.lean) over all splittings of what it receives; liveness from C91_answered and counting |
| C93 | a process with a keyboard, its application and a Linux host | two ends only (`Spec/Attended.lean`): `Uses` and `reportsRead`; `Spec/Exports.lean`: the devices the server has been given so far, of which one alone has the bus id. In between: the history of C91 as the life of one handler object (`Lemmas/Life*.lean`: uses by the application and requests that reach it, in the order of its mutex), the object as a queue (`Feeds`), C92 for the way to the host. `Lemmas/Stage*.lean` build executions from a script of what happens, for the examples |
| C94 | the same with a serial port | `Feeds` for bytes; transfers on control or isochronous endpoints of the port are excluded (they would take bytes away, C40) |
| C95 | a process that exports a built device, and a Linux host | `Spec/Found.lean`: what the host was given back, against the plan of C89; in between, an invariant of the history of C91: the device the client has is the one it asked for (`Lemmas/Held.lean`; `Lemmas/Stock.lean` says where the device is while devices come and go) |
| C96 | the same process, and other clients that do not ask for the device | `Spec/Granted.lean`: the others' requests, or bytes without the bus id; an invariant of the history of C91: the device is in the table until the host is given it (`Lemmas/Granted.lean`) |
| C97 | the same process with `hostCode` (libusb handlers step by step) and libraries that record their calls | `Spec/Physical.lean`: the calls on the handle, and what the driver asks for and is given back; the same history of one object as for C93 (`Lemmas/Life*.lean`), with no application acts (`Lemmas/Physical.lean`) |
| C98 | the same process, and any number of hosts that ask for the same device | `Spec/Contest.lean`: who was given the device, and who still has it; invariants of the history of C91, for all hosts at once: a host that was given it holds it until its task ends, and nobody else does (`Lemmas/Contest.lean`) |
| C99 | the same process; hosts that come one after the other | `Spec/Again.lean`: a connection that has ended and has no device; that this stays so comes from C91, that a host is refused only while another has the device from the lemmas of C98 |
| C100 | the same process with the device of an example program, and an application that does one thing again and again | `Spec/Loop.lean`: the main loop, what a host must do, what it has read; C93, C94 and C96 on the same log (`*_told`), and that the keyboard's answers fit their requests: an invariant of what the object has said (`Lemmas/Owned.lean`), and all its descriptors (`Lemmas/Loop.lean`) |
| C101 | the same process; a connection's task that ends with the device | `Spec/Lost.lean`: a connection that is over and still has the device, a host that is told that there is no such device; an invariant of where the device is (`Lemmas/Lost.lean`): whoever has it or had it at the end, nobody else has, and it is not in the list |
| C102 | the same process with `nusbCode` (nusb handlers step by step) and a nusb that records its calls | `Spec/NusbHost.lean`: the calls made for the device, the transfers with which a handler crashes, and what the driver asks for and is given back; as C97, with requests that are calls or crashes; C101's lemmas for what becomes of the device |
| C103 | `toDoc`, `ofDoc`, `Writes` (Model/Serde.lean): the derived `Serialize` and `Deserialize`, with documents as trees | `Spec/Serde.lean`: documents that agree but for the order of entries; a device without its handlers |
| C104 | the same process; Linux hosts, and a client that asks for the list of devices | `Spec/Listed.lean`: a client that sends this request only; a list that is true of a device at a moment. The list is read with the reader of C09; that a listed device can be had comes from the lemmas of C98 |
| C105 | a process on a runtime with a number of worker threads | `Spec/Workers.lean`: which task a thread has, what tasks do, code without `await`. If a task never gets a thread, then some time every thread is blocked for ever; a blocked thread is inside handler code, which ends, or waits for a mutex that is free again and again (`Lemmas/Workers.lean`) |
| C106 | the server on sockets with handler code that takes time and need not return | a program that waits to write the table of used devices while another stays in a handler: who is behind it in the queue holds no lock and is not at its reply (`Lemmas/Freeze.lean`, carrying `Lemmas/Stall.lean` over to sockets and handler code); for `C106_comes`, that an import request which has arrived is read, started, and comes to its second lock, or somebody else waits to write before (`Lemmas/FreezeLive.lean`); for `C106_silence`, that a reply under way has an end (`Lemmas/Silence.lean`) |
| C107 | the server on sockets with handler code | two programs that hold one lock each for writing and want the other's: neither gets it; replies are sent, tables written and calls take effect only with a lock held that one of the two has (`Task.Keeps`, `Lemmas/Deadlock.lean`) |
| C108 | the server on sockets with handler code | a program at its reply that is not received stays there and keeps the lock all commands begin with (`Lemmas/Unread.lean`); then as for C106, with it in the place of the handler that does not return |

Properties that turn out to be false of the code are kept in full as stated; the theorem that refutes them
(`..._fails...`) and the strongest true `_partial` are listed in `MANIFEST.json`.

## Where the code does not do what a user would expect

These are properties that are false of the code, or conditions the proofs forced. The model follows the code.

1. A second import on one connection forgets the first device: it is not given back (C53_how).
2. A failed write, a panic or a cancelled task also lose the device (C53_how); lost devices stay lost (C53).
3. Two devices with one bus id (all devices made by `UsbDevice::new` have the same) destroy each other (C47).
4. A submit without an imported device panics the connection's task (C32).
5. `remove_device` takes its two locks in the opposite order of imports, releases and listings: deadlock (C34_fails);
   this is the only possible deadlock (C34_only).
6. Every reply is written while a lock is held. A client that does not read the reply to its import blocks all other imports
   (C49_fails). A client that does not read any reply, be it that of an unlink, freezes the whole server as soon as somebody
   imports a device or disconnects with one: the waiting writer keeps all new readers out (C49_freeze, C49_fails_reader);
   the others are then never answered (C83_needed).
7. SET_CONFIGURATION with wLength > 0 returns data for an OUT transfer; debug builds panic, release builds
   desynchronise the client (C08, C48_needs_no_out_data).
8. The endpoint number is truncated to 8 bits and its bit 7 can select the other direction (C54, C55).
9. Read-side checks are `debug_assert`s: bad status or direction fields panic the task in debug builds and are
   accepted in release builds (C04 to C06 state both).
10. The keyboard's release report has 6 bytes where its report descriptor says 8 (C38_fails). All control requests but two
    panic, which poisons the handler for everyone (C20, C51) and ends the keyboard example program (C60_fails).
11. A control IN request to the serial interface drains the serial buffer (C40_fails); bulk IN returns everything buffered,
    whatever the client's buffer length (C41_fails), and a Linux host that asked for less drops the connection (C94_fails_short).
12. Data taken from a handler whose reply cannot be sent is lost (C58, C59 conditions).
13. 48 bytes make the server reserve 64 GiB (C50_fails).
14. Isochronous submits are answered with no packets (C57_fails).
15. Shared host devices: interface string index copied from the host's numbering (C52_fails); device versions whose low
    byte is not zero are reported wrongly (C45_fails); nusb panics on bulk and interrupt transfers (C43); rusb turns
    errors into empty successes (C42).
    USB versions too (2.10 is shown as 2.01), and nusb shows USB 0.00 and 16-byte control packets for every device (C64);
    alternate settings, configuration attributes and power, associations and endpoint extras are not shown (C65_fails);
    SuperSpeed is announced as wireless by rusb, and nusb announces every speed one or two steps too low (C66);
    interfaces are renumbered but requests to them are passed on unchanged, so they reach the wrong host interface when
    the host's numbers have gaps (C67_fails).
16. The 255th string panics or is handed out under index 255, then 0; then the call never returns (C17).
17. `verify_descriptor` never returns on a zero length byte (C44).
18. A handler call that does not return stops all imports and releases on the server (C75_stalled), since the table of
    imported devices stays locked for reading while handler code runs.
19. One host device that announces a string it cannot deliver (or, with nusb, an interface that cannot be claimed) makes
    sharing all devices of the host panic (C77).
20. After two devices with one bus id have been imported by two clients, one client's requests are answered by the
    other's device (C76_confusion): a connection remembers only the bus id and looks the device up at each request.
21. `server` has no way to return: a failed bind panics, errors of `accept` are only logged (if they persist, in a busy
    loop), a caller can only drop it. Dropping it does not stop the clients it has accepted (C82_errors, C82_drop), and
    shutting the runtime down leaves imported devices marked as imported in the `UsbIpServer` (C82_shutdown).
22. An example whose port is taken prints the panic of its spawned task and runs on, feeding its handler and serving
    nobody (C85_unbound).
23. Replies to OUT transfers always report that 0 bytes were transferred, whatever was written (C88_fails, C88_when_partial); code
    that looks at the transferred length of its writes takes this for a failure.
24. A serial port is not what the CDC specification calls one: it lacks the call management and union descriptors and the data
    interface (C90_fails_found), although drivers that accept a collapsed interface find it (C90_found_partial); and
    GET_ENCAPSULATED_RESPONSE, which the specification requires every port to answer, takes away text that waits to be
    read (C90_fails_text). The header descriptor's comment says CDC 1.2, its bytes say 1.10.

## Trusted base

* Lean 4.33.0's kernel.
* Axioms: at most `propext`, `Classical.choice`, `Quot.sound` (Lean's standard ones); the table below gives them per theorem.
  No axioms of our own, no `sorry`, no compiled evaluation (`native_decide`, `bv_decide`).
* The reading of the Rust source, recorded in the citations of each definition.
* Assumed of the environment: tokio's `read_exact`, `read_u16/u32`, `write_all` and fair `RwLock` as documented; Rust's
  `Mutex` poisoning, integer casts and overflow checks as documented.
* Taken from the documentation of rusb 0.9 and nusb 0.1: the order of their speed enumerations (cast to numbers by the
  code), `transfer_type` being bits 0..1 of `bmAttributes`, nusb's `max_packet_size` being bits 0..10, rusb's splitting of
  BCD versions into digits. C64 to C66 depend on it.
* Assumed of serde (C103): what its derive macros generate, as listed at the top of Model/Serde.lean, for self-describing
  formats such as JSON; the text of the documents is not modelled.
* Not modelled: logging, `Debug` impls, `as_any`, allocation failure, the inside of the tokio scheduler
  (interleaving and cancellation are modelled; `Pool` in Spec/Workers.lean says what C105 expects of its worker threads), the OS socket, libusb / nusb internals (arbitrary functions), wall‑clock time, the
  test-only helpers of src/util.rs, `env_logger` in the examples.

### Axioms per theorem

<!-- axioms -->
| axioms | theorems |
|---|---|
| none | `C08_out_data_panics`, `C38_declared` |
| `Quot.sound`, `propext` | `C01_header_roundtrip`, `C03_independent`, `C03_segmentation`, `C04_only_known`, `C04_refused`, `C05_truncated`, `C06_canonical`, `C06_end_kept`, `C06_length`, `C07_identity`, `C07_on_the_wire`, `C08_checked_build`, `C08_exact`, `C08_out_data_desync`, `C08_reply_decodes_partial`, `C09_devlist_decodes`, `C09_devlist_serialises`, `C09_when`, `C10_names`, `C10_record`, `C10_total`, `C11_injective`, `C11_parse`, `C11_parse_encoding`, `C12_exact`, `C12_limit_needed`, `C12_wlength`, `C14_languages`, `C14_limit`, `C17_full_checked`, `C17_interface`, `C17_smallest`, `C18_found`, `C18_missing`, `C21_set_configuration`, `C22_concurrent`, `C22_concurrent_recorded`, `C22_exclusive`, `C22_recorded`, `C23_concurrent`, `C23_conserved`, `C24_given_back`, `C24_no_loss`, `C25_refused`, `C26_history`, `C26_lists_available`, `C27_granted`, `C27_iff`, `C28_holders`, `C28_remove`, `C29_added`, `C30_one_reply_each`, `C31_device`, `C31_needs_unique`, `C31_untouched`, `C32_history`, `C32_no_device`, `C32_over`, `C33_all_answered`, `C35_atomic`, `C35_guarded`, `C35_lifetime`, `C35_observed`, `C35_realised`, `C35_results`, `C35_transfer`, `C38_fails`, `C39_conserved`, `C39_exactly_once`, `C40_control_out_partial`, `C40_fails`, `C41_fails`, `C41_shared`, `C43_device_forwards`, `C43_device_panics`, `C43_forwards`, `C43_windows`, `C43_windows_same`, `C44_accepts`, `C44_diverges`, `C44_panics`, `C44_total`, `C45_fails`, `C47_destroy`, `C48_checked_build`, `C48_conversation`, `C48_needs_no_out_data`, `C49_blocked`, `C49_freeze`, `C49_readers_partial`, `C50_announced_partial`, `C50_ceiling_partial`, `C50_complete_partial`, `C50_fails`, `C50_other_partial`, `C53_example`, `C53_how`, `C53_permanent`, `C54_fails_direction`, `C54_fails_out_as_in`, `C55_fails_truncation`, `C56_identity`, `C57_fails`, `C57_no_results`, `C57_partial`, `C57_when_partial`, `C61_fifo`, `C63_each`, `C70_needs_separate`, `C71_named`, `C73_causal`, `C73_exclusive`, `C73_interactive`, `C73_prompt`, `C73_realised`, `C73_refused`, `C73_transfer`, `C73_transfer_fresh`, `C74_silent`, `C76_confusion`, `C82_accepting`, `C82_errors`, `C82_fifo`, `C82_open`, `C82_shutdown`, `C83_needed`, `C85_unbound`, `C86_behaves`, `C86_returns`, `C87_announced`, `C88_handlers`, `C88_length`, `C88_when_partial`, `C92_checked` |
| `Classical.choice`, `Quot.sound`, `propext` | `C01_roundtrip`, `C02_pipeline`, `C05_truncated_encoding`, `C08_fail_and_unlink`, `C08_when_partial`, `C100_keyboard`, `C100_serial`, `C101_lost`, `C102_device`, `C103_commands`, `C103_device`, `C103_replies`, `C103_values`, `C104_list`, `C104_shown`, `C105_fair`, `C105_served`, `C105_stuck`, `C106_anyone`, `C106_comes`, `C106_freeze`, `C106_happens`, `C106_silence`, `C106_silent`, `C107_anyone`, `C107_happens`, `C107_silence`, `C108_freeze`, `C108_import`, `C108_silence`, `C108_silent`, `C13_configuration`, `C13_limits`, `C14_string`, `C15_unknown_string`, `C16_slots`, `C17_full_unchecked`, `C18_constructors`, `C19_dispatch`, `C20_panics`, `C20_terminates`, `C28_concurrent`, `C33_unlink`, `C34_fails`, `C34_only`, `C34_progress_partial`, `C36_fifo`, `C36_polls`, `C37_injective`, `C37_table`, `C38_size_partial`, `C38_when_partial`, `C40_when_partial`, `C41_bundled`, `C41_exact_partial`, `C41_history_partial`, `C41_limit_partial`, `C42_bounded`, `C42_device`, `C42_device_bounded`, `C42_interface`, `C43_panics`, `C45_conversions`, `C45_version_partial`, `C46_nusb`, `C46_rusb`, `C47_all_equal`, `C49_commands_partial`, `C49_fails`, `C49_fails_reader`, `C49_transfers_partial`, `C50_when_partial`, `C51_exactly`, `C51_forever`, `C51_others`, `C51_refused`, `C52_fails`, `C52_nusb_partial`, `C52_nusb_shown`, `C52_rusb_partial`, `C52_rusb_shown`, `C55_endpoint_partial`, `C55_exact`, `C55_when_partial`, `C58_fifo`, `C58_replies`, `C59_exactly_once`, `C59_no_duplicates`, `C60_fails`, `C60_keyboard_partial`, `C60_serial`, `C60_starts`, `C62_completes`, `C62_needed`, `C62_no_removals`, `C63_attained`, `C63_attained_calls`, `C63_bounded`, `C64_nusb_fails`, `C64_nusb_partial`, `C64_nusb_record`, `C64_rusb_fails`, `C64_rusb_partial`, `C64_rusb_record`, `C65_fails`, `C65_nusb_partial`, `C65_rusb_partial`, `C66_nusb_fails`, `C66_rusb_partial`, `C67_exact`, `C67_fails`, `C67_nusb_exact`, `C67_partial`, `C68_invocations`, `C68_poisoned`, `C69_shared`, `C70_isolated`, `C70_noninterference`, `C71_session`, `C72_enumeration`, `C72_readable`, `C74_panics`, `C75_atomic`, `C75_calls`, `C75_exclusive`, `C75_observed`, `C75_parallel`, `C75_progress`, `C75_quiet`, `C75_realised`, `C75_stalled`, `C76_concurrent`, `C76_interactive`, `C76_server`, `C76_urb`, `C77_distinct`, `C77_distinct_nusb`, `C77_nusb`, `C77_rusb`, `C78_descriptors`, `C78_keyboard`, `C78_keyboard_poll`, `C78_records`, `C78_serial`, `C78_serial_read`, `C79_explained`, `C79_hindsight`, `C79_progress`, `C79_quiet`, `C79_realised`, `C79_reference`, `C79_transfer`, `C80_shared`, `C81_atomic`, `C81_call_progress`, `C81_calls`, `C81_enter`, `C81_exclusive`, `C81_explained`, `C81_progress`, `C81_realised`, `C81_reference`, `C81_stalled`, `C81_transfer`, `C82_accept`, `C82_drop`, `C82_history`, `C82_realised`, `C82_transfer`, `C83_all`, `C83_answered`, `C83_completes`, `C83_hangup`, `C83_over`, `C84_all`, `C84_answered`, `C84_completes`, `C84_frees`, `C84_hangup`, `C84_over`, `C84_stuck`, `C85_bound`, `C85_keyboard_ends`, `C85_runs`, `C85_starts`, `C85_text`, `C85_text_read`, `C85_typing`, `C85_typing_poll`, `C86_dead`, `C86_exclusive`, `C86_kills`, `C86_refused`, `C86_serial`, `C86_shared`, `C87_configuration`, `C87_example`, `C87_keys`, `C87_release`, `C87_setup`, `C87_text`, `C87_whole_text`, `C88_fails`, `C88_serial`, `C89_built`, `C89_enumerated`, `C90_configured`, `C90_example_partial`, `C90_fails_found`, `C90_fails_text`, `C90_found_partial`, `C90_text_partial`, `C91_accepted`, `C91_accepting`, `C91_answered`, `C91_completes`, `C91_explained`, `C91_hangup`, `C91_realised`, `C91_reference`, `C91_served`, `C91_server`, `C92_ends`, `C92_exchange`, `C92_returned`, `C92_safe`, `C93_keyboard`, `C93_text`, `C94_fails_short`, `C94_serial`, `C95_descriptors`, `C95_learned`, `C95_said`, `C96_given`, `C97_device`, `C98_contest`, `C99_back`, `C99_in_turn`, `C99_next` |
<!-- /axioms -->
