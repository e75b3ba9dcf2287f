{
 "claims": [
  {
   "property": "C01",
   "status": "proved",
   "theorems": [
    "Usbip.C01_roundtrip",
    "Usbip.C01_header_roundtrip"
   ],
   "note": "Round trip through the model of to_bytes/read_from_socket and through an independent statement of the packet layout; header alone in C01_header_roundtrip."
  },
  {
   "property": "C02",
   "status": "proved",
   "theorems": [
    "Usbip.C02_pipeline"
   ],
   "note": "Induction over the command list; anything that follows is left untouched."
  },
  {
   "property": "C03",
   "status": "proved",
   "theorems": [
    "Usbip.C03_segmentation",
    "Usbip.C03_independent"
   ],
   "note": "Proved for a segmented source; C03_independent is the relational form."
  },
  {
   "property": "C04",
   "status": "proved",
   "theorems": [
    "Usbip.C04_only_known",
    "Usbip.C04_refused"
   ],
   "note": "Both directions: only known versions/commands are accepted, all others are refused with an error."
  },
  {
   "property": "C05",
   "status": "proved",
   "theorems": [
    "Usbip.C05_truncated",
    "Usbip.C05_truncated_encoding"
   ],
   "note": "For every proper prefix of a well-formed packet; the error is the way the stream ended."
  },
  {
   "property": "C06",
   "status": "proved",
   "theorems": [
    "Usbip.C06_canonical",
    "Usbip.C06_end_kept",
    "Usbip.C06_length"
   ],
   "note": "Exact characterisation (iff) of what the reader accepts and what it consumes."
  },
  {
   "property": "C07",
   "status": "proved",
   "theorems": [
    "Usbip.C07_identity",
    "Usbip.C07_on_the_wire"
   ],
   "note": "From the server step; the reply carries the request's header with only the command code changed."
  },
  {
   "property": "C08",
   "status": "partial",
   "theorems": [
    "Usbip.C08_reply_decodes_partial",
    "Usbip.C08_checked_build",
    "Usbip.C08_fail_and_unlink",
    "Usbip.C08_exact",
    "Usbip.C08_when_partial",
    "Usbip.C08_out_data_desync",
    "Usbip.C08_out_data_panics"
   ],
   "note": "Partial: without debug assertions a reply to an OUT request that carries data desynchronises the client (C08_out_data_desync); with debug assertions the task panics instead (C08_out_data_panics). Full for replies whose OUT data is empty, and for checked builds. C08_exact says for every reply what the client decodes and what is left of the stream; C08_when_partial that the claim holds exactly for replies without data and IN replies below 4 GiB."
  },
  {
   "property": "C09",
   "status": "proved",
   "theorems": [
    "Usbip.C09_devlist_decodes",
    "Usbip.C09_when",
    "Usbip.C09_devlist_serialises"
   ],
   "note": "The client decoder is an independent specification; C09_when is the exact condition."
  },
  {
   "property": "C10",
   "status": "proved",
   "theorems": [
    "Usbip.C10_record",
    "Usbip.C10_names",
    "Usbip.C10_total"
   ],
   "note": "312 bytes, every field at its offset, names recovered, and exactly when serialising fails."
  },
  {
   "property": "C11",
   "status": "proved",
   "theorems": [
    "Usbip.C11_parse",
    "Usbip.C11_parse_encoding",
    "Usbip.C11_injective"
   ],
   "note": "Parsing is a bijection between 8-byte packets and SETUP values."
  },
  {
   "property": "C12",
   "status": "proved",
   "theorems": [
    "Usbip.C12_wlength",
    "Usbip.C12_exact",
    "Usbip.C12_limit_needed"
   ],
   "note": "For full descriptors below 65536 bytes; C12_limit_needed shows the bound is needed, C12_exact says what happens for every length."
  },
  {
   "property": "C13",
   "status": "proved",
   "theorems": [
    "Usbip.C13_configuration",
    "Usbip.C13_limits"
   ],
   "note": "Block structure, announced length and interface/endpoint order of the configuration descriptor; C13_limits says exactly up to which size."
  },
  {
   "property": "C14",
   "status": "proved",
   "theorems": [
    "Usbip.C14_string",
    "Usbip.C14_languages",
    "Usbip.C14_limit"
   ],
   "note": "UTF-16 decoding is an independent specification; the limit of 126 units is shown to be exact."
  },
  {
   "property": "C15",
   "status": "proved",
   "theorems": [
    "Usbip.C15_unknown_string"
   ],
   "note": "From the server step."
  },
  {
   "property": "C16",
   "status": "proved",
   "theorems": [
    "Usbip.C16_slots"
   ],
   "note": "Refinement of the string table API to named slots, by induction over call sequences."
  },
  {
   "property": "C17",
   "status": "proved",
   "theorems": [
    "Usbip.C17_smallest",
    "Usbip.C17_interface",
    "Usbip.C17_full_checked",
    "Usbip.C17_full_unchecked"
   ],
   "note": "Smallest free index; behaviour when full for both kinds of build; named interfaces, and handlers whose mutex is poisoned."
  },
  {
   "property": "C18",
   "status": "proved",
   "theorems": [
    "Usbip.C18_found",
    "Usbip.C18_missing",
    "Usbip.C18_constructors"
   ],
   "note": "Exact lookup (iff) for devices made by the public constructors."
  },
  {
   "property": "C19",
   "status": "proved",
   "theorems": [
    "Usbip.C19_dispatch"
   ],
   "note": "With a logging environment: exactly one call, to the addressed handler, with the request's parameters."
  },
  {
   "property": "C20",
   "status": "proved",
   "theorems": [
    "Usbip.C20_panics",
    "Usbip.C20_terminates"
   ],
   "note": "Exact characterisation (iff) of the URBs that panic, and termination."
  },
  {
   "property": "C21",
   "status": "proved",
   "theorems": [
    "Usbip.C21_set_configuration"
   ],
   "note": "For all devices and requests."
  },
  {
   "property": "C22",
   "status": "proved",
   "theorems": [
    "Usbip.C22_concurrent",
    "Usbip.C22_concurrent_recorded",
    "Usbip.C22_exclusive",
    "Usbip.C22_recorded"
   ],
   "note": "Invariant over all event histories with unique bus ids; C22_concurrent states it for concurrent executions of the lock-level model, between requests of the two connections concerned."
  },
  {
   "property": "C23",
   "status": "proved",
   "theorems": [
    "Usbip.C23_concurrent",
    "Usbip.C23_conserved"
   ],
   "note": "Conservation of devices over all event histories; C23_concurrent for concurrent executions at any moment at which nobody holds a write lock."
  },
  {
   "property": "C24",
   "status": "proved",
   "theorems": [
    "Usbip.C24_given_back",
    "Usbip.C24_no_loss"
   ],
   "note": "Over all event histories."
  },
  {
   "property": "C25",
   "status": "proved",
   "theorems": [
    "Usbip.C25_refused"
   ],
   "note": "From the server step."
  },
  {
   "property": "C26",
   "status": "proved",
   "theorems": [
    "Usbip.C26_lists_available",
    "Usbip.C26_history"
   ],
   "note": "C26_history is the claim over whole histories; the others are about one request."
  },
  {
   "property": "C27",
   "status": "proved",
   "theorems": [
    "Usbip.C27_granted",
    "Usbip.C27_iff"
   ],
   "note": "Both directions (iff)."
  },
  {
   "property": "C28",
   "status": "proved",
   "theorems": [
    "Usbip.C28_remove",
    "Usbip.C28_concurrent",
    "Usbip.C28_holders"
   ],
   "note": "All three results of remove_device and their effects; C28_concurrent: also for calls that run among other programs, at the moment of their effect."
  },
  {
   "property": "C29",
   "status": "proved",
   "theorems": [
    "Usbip.C29_added"
   ],
   "note": "An added device is offered and can be imported."
  },
  {
   "property": "C30",
   "status": "proved",
   "theorems": [
    "Usbip.C30_one_reply_each"
   ],
   "note": "Invariant over all histories."
  },
  {
   "property": "C31",
   "status": "proved",
   "theorems": [
    "Usbip.C31_untouched",
    "Usbip.C31_device",
    "Usbip.C31_needs_unique"
   ],
   "note": "Holds with unique bus ids; C31_needs_unique shows the condition is needed."
  },
  {
   "property": "C32",
   "status": "proved",
   "theorems": [
    "Usbip.C32_no_device",
    "Usbip.C32_over",
    "Usbip.C32_history"
   ],
   "note": "From the server step: what a submit without a device does, and that the connection is over. C32_history: the same after any history, where which device a connection has is told from the requests it has been served, not from the field of the model."
  },
  {
   "property": "C33",
   "status": "proved",
   "theorems": [
    "Usbip.C33_all_answered",
    "Usbip.C33_unlink"
   ],
   "note": "Unlink is always answered with success, and everything before it has been answered."
  },
  {
   "property": "C34",
   "status": "partial",
   "theorems": [
    "Usbip.C34_only",
    "Usbip.C34_progress_partial",
    "Usbip.C34_fails"
   ],
   "note": "False of the code: remove_device of an unknown id waits for the table of used devices while holding the list of available ones; an import, release or listing takes them in the other order, so the server can freeze for ever (C34_fails, a reachable execution). C34_only: that is the only possible cause. Partial: no deadlock as long as no removal is waiting for its second lock."
  },
  {
   "property": "C35",
   "status": "proved",
   "theorems": [
    "Usbip.C35_transfer",
    "Usbip.C35_realised",
    "Usbip.C35_atomic",
    "Usbip.C35_observed",
    "Usbip.C35_lifetime",
    "Usbip.C35_guarded",
    "Usbip.C35_results"
   ],
   "note": "Every execution of the lock-level model is matched by an execution of the one-at-a-time model with the same effects in order of commit (C35_atomic), every connection reads exactly what it would read there (C35_observed), effects lie between start and end of the operation (C35_lifetime), and shared data is only touched under its lock (C35_guarded). C35_transfer moves any property of all one-at-a-time histories to concurrent executions at rest; C35_realised shows conversely that every one-at-a-time history is realised by the lock-level programs. C35_results: a management call returns what its event gives after the effects before its own."
  },
  {
   "property": "C36",
   "status": "proved",
   "theorems": [
    "Usbip.C36_polls",
    "Usbip.C36_fifo"
   ],
   "note": "Refinement to an independent specification of polls; FIFO corollary."
  },
  {
   "property": "C37",
   "status": "proved",
   "theorems": [
    "Usbip.C37_table",
    "Usbip.C37_injective"
   ],
   "note": "All 256 bytes."
  },
  {
   "property": "C38",
   "status": "partial",
   "theorems": [
    "Usbip.C38_when_partial",
    "Usbip.C38_declared",
    "Usbip.C38_size_partial",
    "Usbip.C38_fails"
   ],
   "note": "False of the code: the key-up report has 6 bytes, the descriptor declares 8 (C38_fails). Partial: all other reports have the declared size; C38_when_partial: of the reports a keyboard delivers exactly every second one has the wrong size."
  },
  {
   "property": "C39",
   "status": "proved",
   "theorems": [
    "Usbip.C39_conserved",
    "Usbip.C39_exactly_once"
   ],
   "note": "Induction over histories; C39_conserved is without the proviso, for the replies of all kinds together."
  },
  {
   "property": "C40",
   "status": "partial",
   "theorems": [
    "Usbip.C40_when_partial",
    "Usbip.C40_control_out_partial",
    "Usbip.C40_fails"
   ],
   "note": "False of the code: a control IN request drains the serial buffer (C40_fails). Partial: control OUT requests do not; C40_when_partial says exactly which control requests to a device take data out of the buffer, and that they return all of it."
  },
  {
   "property": "C41",
   "status": "partial",
   "theorems": [
    "Usbip.C41_limit_partial",
    "Usbip.C41_fails",
    "Usbip.C41_exact_partial",
    "Usbip.C41_history_partial",
    "Usbip.C41_shared",
    "Usbip.C41_bundled"
   ],
   "note": "False of the code: the CDC handler returns everything it has buffered (C41_fails). Partial: C41_exact_partial says, for any state of the server, what is sent, and that it fits exactly if what the handler gave, or the part of the descriptor asked for by the setup packet, does; C41_history_partial: it does for handlers that respect the limit and wLength not above the buffer length. C41_shared: the libusb and nusb handlers respect it; C41_bundled: what the serial and keyboard handlers give."
  },
  {
   "property": "C42",
   "status": "proved",
   "theorems": [
    "Usbip.C42_interface",
    "Usbip.C42_device",
    "Usbip.C42_bounded",
    "Usbip.C42_device_bounded"
   ],
   "note": "For every library that is honest about lengths, for interface and device handlers."
  },
  {
   "property": "C43",
   "status": "proved",
   "theorems": [
    "Usbip.C43_panics",
    "Usbip.C43_forwards",
    "Usbip.C43_device_panics",
    "Usbip.C43_device_forwards",
    "Usbip.C43_windows",
    "Usbip.C43_windows_same"
   ],
   "note": "For every library behaviour. C43_windows, C43_windows_same: the device handler as built on Windows."
  },
  {
   "property": "C44",
   "status": "proved",
   "theorems": [
    "Usbip.C44_accepts",
    "Usbip.C44_diverges",
    "Usbip.C44_panics",
    "Usbip.C44_total"
   ],
   "note": "All three outcomes characterised exactly."
  },
  {
   "property": "C45",
   "status": "partial",
   "theorems": [
    "Usbip.C45_version_partial",
    "Usbip.C45_fails",
    "Usbip.C45_conversions"
   ],
   "note": "False of the code when the low byte is not zero (C45_fails). Partial: exactly the versions with zero low byte are reported as given, in the record and in the device descriptor sent; the conversions to and from libusb versions lose nothing."
  },
  {
   "property": "C46",
   "status": "proved",
   "theorems": [
    "Usbip.C46_rusb",
    "Usbip.C46_nusb"
   ],
   "note": "Decimal formatting is shown injective."
  },
  {
   "property": "C47",
   "status": "proved",
   "theorems": [
    "Usbip.C47_all_equal",
    "Usbip.C47_destroy"
   ],
   "note": "Symbolic execution of the five events for all devices."
  },
  {
   "property": "C48",
   "status": "proved",
   "theorems": [
    "Usbip.C48_conversation",
    "Usbip.C48_checked_build",
    "Usbip.C48_needs_no_out_data"
   ],
   "note": "Under the stated proviso, which C48_needs_no_out_data shows to be needed."
  },
  {
   "property": "C49",
   "status": "partial",
   "theorems": [
    "Usbip.C49_fails",
    "Usbip.C49_readers_partial",
    "Usbip.C49_blocked",
    "Usbip.C49_freeze",
    "Usbip.C49_fails_reader",
    "Usbip.C49_transfers_partial",
    "Usbip.C49_commands_partial"
   ],
   "note": "False of the code: replies are written with locks held. C49_fails: a client that does not read its import reply blocks all other imports for ever. C49_fails_reader: a client that does not read the reply to an unlink, and another one asking for an import, freeze the server: no connection, old or new, is sent a byte any more. C49_blocked and C49_freeze say in general what is blocked. Partial, any set of clients may stop reading: as long as nobody imports and no connection with a device ends, every submit and unlink of the others is answered (C49_transfers_partial), and so is every listing if no device is added or removed (C49_commands_partial). Missing: the same with imports and disconnections, which is false (C106, C107 and C108 say what happens then, in every execution of a process)."
  },
  {
   "property": "C50",
   "status": "partial",
   "theorems": [
    "Usbip.C50_when_partial",
    "Usbip.C50_fails",
    "Usbip.C50_complete_partial",
    "Usbip.C50_other_partial",
    "Usbip.C50_announced_partial",
    "Usbip.C50_ceiling_partial"
   ],
   "note": "False of the code: 48 bytes of a submit header make the server reserve up to 64 GiB before any data arrives (C50_fails). Partial: packets received completely, everything but submits, submits up to what they announce, and the useless absolute ceiling. C50_when_partial: for a submit whose fixed part has arrived, exactly when the bound holds."
  },
  {
   "property": "C51",
   "status": "proved",
   "theorems": [
    "Usbip.C51_exactly",
    "Usbip.C51_refused",
    "Usbip.C51_others",
    "Usbip.C51_forever"
   ],
   "note": "Exactly the crashed handler is marked; marks are permanent; others are unaffected."
  },
  {
   "property": "C52",
   "status": "partial",
   "theorems": [
    "Usbip.C52_rusb_partial",
    "Usbip.C52_nusb_partial",
    "Usbip.C52_fails",
    "Usbip.C52_rusb_shown",
    "Usbip.C52_nusb_shown"
   ],
   "note": "False of the code for interface strings (C52_fails: the client is shown the manufacturer name). Partial: device strings. C52_rusb_shown and C52_nusb_shown give the exact string shown for every index, including those of the interface names."
  },
  {
   "property": "C53",
   "status": "proved",
   "theorems": [
    "Usbip.C53_permanent",
    "Usbip.C53_how",
    "Usbip.C53_example"
   ],
   "note": "Permanence over all continuations; exact causes."
  },
  {
   "property": "C54",
   "status": "partial",
   "theorems": [
    "Usbip.C55_endpoint_partial",
    "Usbip.C55_exact",
    "Usbip.C55_when_partial",
    "Usbip.C54_fails_out_as_in",
    "Usbip.C54_fails_direction"
   ],
   "note": "False of the code for directions above 1 and endpoint numbers from 128 (C54_fails_*). C55_exact says for all requests what they carry and where they are executed; C55_when_partial that, whatever the device, a request is executed as named exactly for direction 0/1 and endpoints below 128; C55_endpoint_partial is the claim for those."
  },
  {
   "property": "C55",
   "status": "partial",
   "theorems": [
    "Usbip.C55_exact",
    "Usbip.C55_endpoint_partial",
    "Usbip.C55_when_partial",
    "Usbip.C55_fails_truncation"
   ],
   "note": "False of the code for endpoint numbers from 128 (C55_fails_truncation, C54_fails_out_as_in). C55_exact is the exact endpoint for all requests; C55_when_partial that it is the named one, whatever the device, exactly for endpoints below 128 and direction 0/1; C55_endpoint_partial is the claim for those."
  },
  {
   "property": "C56",
   "status": "proved",
   "theorems": [
    "Usbip.C56_identity"
   ],
   "note": "The descriptor blocks are an independent specification."
  },
  {
   "property": "C57",
   "status": "partial",
   "theorems": [
    "Usbip.C57_no_results",
    "Usbip.C57_fails",
    "Usbip.C57_partial",
    "Usbip.C57_when_partial"
   ],
   "note": "False of the code: every submit is answered with 0 packets and no packet results (C57_no_results, C57_fails). Partial: submits for no packets, and only those (C57_when_partial)."
  },
  {
   "property": "C58",
   "status": "proved",
   "theorems": [
    "Usbip.C58_replies",
    "Usbip.C58_fifo"
   ],
   "note": "Refinement: the server with a keyboard among arbitrary handlers against the specification of C36, over all connections; FIFO corollary."
  },
  {
   "property": "C59",
   "status": "proved",
   "theorems": [
    "Usbip.C59_exactly_once",
    "Usbip.C59_no_duplicates"
   ],
   "note": "Exactly once under the stated conditions; subsequence (nothing invented, repeated or reordered) without any condition."
  },
  {
   "property": "C60",
   "status": "partial",
   "theorems": [
    "Usbip.C60_starts",
    "Usbip.C60_serial",
    "Usbip.C60_keyboard_partial",
    "Usbip.C60_fails"
   ],
   "note": "Serial example: proved for all histories. Keyboard example: false of the code (C60_fails: one HID GET_REPORT poisons the handler and main panics). Partial: it ends exactly when a control request other than the two the handler knows is executed and the program has a turn afterwards (an equivalence)."
  },
  {
   "property": "C61",
   "status": "proved",
   "theorems": [
    "Usbip.C61_fifo"
   ],
   "note": "First in, first out, per lock; from tokio fair queueing as modelled."
  },
  {
   "property": "C62",
   "status": "proved",
   "theorems": [
    "Usbip.C62_completes",
    "Usbip.C62_no_removals",
    "Usbip.C62_needed"
   ],
   "note": "Liveness: weak fairness per program. C62_needed shows the condition on removals is necessary (the deadlock of C34)."
  },
  {
   "property": "C63",
   "status": "proved",
   "theorems": [
    "Usbip.C63_each",
    "Usbip.C63_bounded",
    "Usbip.C63_attained",
    "Usbip.C63_attained_calls"
   ],
   "note": "C63_each: the bound for each kind of operation, C63_bounded: 16 for all of them; C63_attained, C63_attained_calls: executions that take all of the steps."
  },
  {
   "property": "C64",
   "status": "partial",
   "theorems": [
    "Usbip.C64_rusb_partial",
    "Usbip.C64_rusb_record",
    "Usbip.C64_nusb_record",
    "Usbip.C64_rusb_fails",
    "Usbip.C64_nusb_partial",
    "Usbip.C64_nusb_fails"
   ],
   "note": "False of the code for versions that are not x.00 (C64_rusb_fails) and, through nusb, for USB version and control packet size of every ordinary device (C64_nusb_fails). Partial: byte-exact description of what is shown, iff for when it is right; the record."
  },
  {
   "property": "C65",
   "status": "partial",
   "theorems": [
    "Usbip.C65_rusb_partial",
    "Usbip.C65_nusb_partial",
    "Usbip.C65_fails"
   ],
   "note": "False of the code (C65_fails): alternate settings, interface numbers, attributes, power, associations and endpoint extras are lost. Partial: exactly which part is kept, and equality when nothing else is there."
  },
  {
   "property": "C66",
   "status": "partial",
   "theorems": [
    "Usbip.C66_rusb_partial",
    "Usbip.C66_nusb_fails"
   ],
   "note": "False of the code for SuperSpeed (libusb: announced as wireless) and for every nusb device (C66_nusb_fails). Partial: exact iff for libusb. Discriminants of the rusb and nusb enumerations are taken from those libraries."
  },
  {
   "property": "C67",
   "status": "partial",
   "theorems": [
    "Usbip.C67_partial",
    "Usbip.C67_exact",
    "Usbip.C67_nusb_exact",
    "Usbip.C67_fails"
   ],
   "note": "False of the code when host interface numbers have gaps (C67_fails). Partial: interfaces whose number is their position, both directions; for libusb and nusb, the exact request that is made whatever the number, hence iff."
  },
  {
   "property": "C68",
   "status": "proved",
   "theorems": [
    "Usbip.C68_invocations",
    "Usbip.C68_poisoned"
   ],
   "note": "For arbitrary handlers, by induction over histories of the server model; which handler a request asks for is a separate specification (C19)."
  },
  {
   "property": "C69",
   "status": "proved",
   "theorems": [
    "Usbip.C69_shared"
   ],
   "note": "For every library that is honest about lengths (C86 is about the others); the device may also change by itself at any time."
  },
  {
   "property": "C70",
   "status": "proved",
   "theorems": [
    "Usbip.C70_isolated",
    "Usbip.C70_noninterference",
    "Usbip.C70_needs_separate"
   ],
   "note": "C70_isolated compares the server with the client alone on it; C70_noninterference compares two servers that differ in everything else; C70_needs_separate shows that the condition on handler objects is needed. Holding locks (when, not what) is the subject of C49 and C61-C63."
  },
  {
   "property": "C71",
   "status": "proved",
   "theorems": [
    "Usbip.C71_session",
    "Usbip.C71_named"
   ],
   "note": "C71_session: answers come from the device named last, and it is recorded as imported; C71_named: it was given to the server. Its handlers may answer in any state, which C58 and C68 pin down."
  },
  {
   "property": "C72",
   "status": "proved",
   "theorems": [
    "Usbip.C72_readable",
    "Usbip.C72_enumeration"
   ],
   "note": "C72_readable is the descriptor level, C72_enumeration the whole path from the bytes a client sends to the bytes it receives. The limits are those of C12, C13 and C14; C12_limit_needed and C14_limit show the failures beyond them."
  },
  {
   "property": "C73",
   "status": "proved",
   "theorems": [
    "Usbip.C73_causal",
    "Usbip.C73_interactive",
    "Usbip.C73_realised",
    "Usbip.C73_transfer",
    "Usbip.C73_transfer_fresh",
    "Usbip.C73_exclusive",
    "Usbip.C73_prompt",
    "Usbip.C73_refused"
   ],
   "note": "Model/Network.lean delivers bytes over time. C73_interactive and C73_realised say the two models reach the same states; C73_causal is independence of the future, C73_prompt and C73_refused are when an iteration waits. C73_exclusive is C22 carried over by C73_transfer_fresh as an instance."
  },
  {
   "property": "C74",
   "status": "proved",
   "theorems": [
    "Usbip.C74_panics",
    "Usbip.C74_silent"
   ],
   "note": "The device part is C20. C53_how says what a crash does to the imported device."
  },
  {
   "property": "C75",
   "status": "proved",
   "theorems": [
    "Usbip.C75_calls",
    "Usbip.C75_atomic",
    "Usbip.C75_quiet",
    "Usbip.C75_observed",
    "Usbip.C75_exclusive",
    "Usbip.C75_progress",
    "Usbip.C75_stalled",
    "Usbip.C75_realised",
    "Usbip.C75_parallel"
   ],
   "note": "Model/Mutex.lean refines the lock-level model; C75_calls ties its handler calls to the programs of that model, C75_atomic and C75_realised are the two directions, C75_observed goes down to the one-at-a-time model. Handler code touches only its object; several handlers may have one together."
  },
  {
   "property": "C76",
   "status": "proved",
   "theorems": [
    "Usbip.C76_urb",
    "Usbip.C76_server",
    "Usbip.C76_concurrent",
    "Usbip.C76_interactive",
    "Usbip.C76_confusion"
   ],
   "note": "Simulation between the server model and Spec/Reference.lean, a server with its own parser, records, descriptors and dispatch. C76_confusion shows that the condition on bus ids is needed."
  },
  {
   "property": "C77",
   "status": "proved",
   "theorems": [
    "Usbip.C77_rusb",
    "Usbip.C77_nusb",
    "Usbip.C77_distinct",
    "Usbip.C77_distinct_nusb"
   ],
   "note": "For arbitrary reports of the USB libraries. One defective device makes the whole start panic (an example shows it)."
  },
  {
   "property": "C78",
   "status": "proved",
   "theorems": [
    "Usbip.C78_keyboard",
    "Usbip.C78_keyboard_poll",
    "Usbip.C78_serial",
    "Usbip.C78_serial_read",
    "Usbip.C78_descriptors",
    "Usbip.C78_records"
   ],
   "note": "From the refinements of C58 and C59, with the records and descriptors byte by byte; every running state of the programs is a state of the server model (progRun_sys)."
  },
  {
   "property": "C79",
   "status": "proved",
   "theorems": [
    "Usbip.C79_explained",
    "Usbip.C79_hindsight",
    "Usbip.C79_quiet",
    "Usbip.C79_transfer",
    "Usbip.C79_reference",
    "Usbip.C79_realised",
    "Usbip.C79_progress"
   ],
   "note": "Model/Sockets.lean joins the lock-level and the interactive model. C79_explained is the claim at every moment, C79_quiet and C79_transfer carry every theorem about interactive histories over, C79_realised is the converse, C79_hindsight independence of bytes still to come, C79_progress absence of deadlock under the condition of C34."
  },
  {
   "property": "C80",
   "status": "proved",
   "theorems": [
    "Usbip.C80_shared"
   ],
   "note": "Hypothesis Honest: nusb does not report more bytes read than the buffer holds. The trace is that of C68."
  },
  {
   "property": "C81",
   "status": "proved",
   "theorems": [
    "Usbip.C81_calls",
    "Usbip.C81_atomic",
    "Usbip.C81_explained",
    "Usbip.C81_transfer",
    "Usbip.C81_reference",
    "Usbip.C81_exclusive",
    "Usbip.C81_call_progress",
    "Usbip.C81_progress",
    "Usbip.C81_realised",
    "Usbip.C81_stalled",
    "Usbip.C81_enter"
   ],
   "note": "Model/Whole.lean joins the sockets of C79 with the step-by-step handler code of C75. C81_explained and C81_transfer are the claim at every moment and at quiet moments, C81_reference relates it to the reference server of C76, C81_realised is the converse; busy and asleep are concrete states with two handlers running and a reply half sent, and with a handler that never returns."
  },
  {
   "property": "C82",
   "status": "proved",
   "theorems": [
    "Usbip.C82_history",
    "Usbip.C82_transfer",
    "Usbip.C82_realised",
    "Usbip.C82_open",
    "Usbip.C82_fifo",
    "Usbip.C82_accept",
    "Usbip.C82_errors",
    "Usbip.C82_drop",
    "Usbip.C82_shutdown",
    "Usbip.C82_accepting"
   ],
   "note": "Model/Listen.lean adds calls of server, the queue of connections not yet accepted, accept errors, drops and shutdowns to the interactive histories of C73. C82_history, C82_transfer and C82_realised relate the two; C82_open, C82_fifo, C82_accept, C82_errors, C82_drop, C82_shutdown are about the accept loop itself; C82_accepting is at the level of C81 (every state, whoever holds locks or runs handler code)."
  },
  {
   "property": "C83",
   "status": "proved",
   "theorems": [
    "Usbip.C83_answered",
    "Usbip.C83_all",
    "Usbip.C83_over",
    "Usbip.C83_hangup",
    "Usbip.C83_completes",
    "Usbip.C83_needed"
   ],
   "note": "Liveness on infinite executions of the socket model under weak fairness (Spec/Live.lean: tasks, reads, loops, clients). C83_answered: one request; C83_all: any number; C83_over, C83_hangup: the end of a connection; C83_completes: management calls. C83_needed: without the condition that clients read, a request of another client is never answered (see C62_needed for the condition on removals). pipelined is a concrete fair execution that meets the hypotheses."
  },
  {
   "property": "C84",
   "status": "proved",
   "theorems": [
    "Usbip.C84_answered",
    "Usbip.C84_all",
    "Usbip.C84_over",
    "Usbip.C84_hangup",
    "Usbip.C84_completes",
    "Usbip.C84_frees",
    "Usbip.C84_stuck"
   ],
   "note": "Executions of Model/Whole.lean (Spec/WholeLive.lean: WholeExec, Fair with weak fairness for tasks and strong fairness for mutexes). A fair execution has a fair execution of the socket model behind it (Lemmas/WholeLive.lean, Behind.fair), to which C83 applies. C84_stuck is the converse for code that never returns. submitted is a concrete fair execution in which a handler is called; C84_stuck is applied to a sleeping handler."
  },
  {
   "property": "C85",
   "status": "proved",
   "theorems": [
    "Usbip.C85_starts",
    "Usbip.C85_runs",
    "Usbip.C85_keyboard_ends",
    "Usbip.C85_unbound",
    "Usbip.C85_bound",
    "Usbip.C85_typing",
    "Usbip.C85_typing_poll",
    "Usbip.C85_text",
    "Usbip.C85_text_read"
   ],
   "note": "Model/Main.lean puts the main loops of the three examples beside the accept loop of C82. C85_starts, C85_runs, C85_keyboard_ends: when the programs end; C85_unbound, C85_bound: the two outcomes of bind; C85_typing, C85_typing_poll, C85_text, C85_text_read: C78 for clients on sockets."
  },
  {
   "property": "C86",
   "status": "proved",
   "theorems": [
    "Usbip.C86_dead",
    "Usbip.C86_refused",
    "Usbip.C86_kills",
    "Usbip.C86_behaves",
    "Usbip.C86_returns",
    "Usbip.C86_exclusive",
    "Usbip.C86_serial",
    "Usbip.C86_shared"
   ],
   "note": "C86_shared is the history with any library (C69_shared follows from it), C86_kills the request that kills the device, C86_dead and C86_refused what comes after; C86_behaves and C86_returns make the step-by-step code of src/host.rs an instance of the handler code of C75, C81 and C84, of which C86_exclusive and C86_serial are consequences."
  },
  {
   "property": "C87",
   "status": "proved",
   "theorems": [
    "Usbip.C87_keys",
    "Usbip.C87_release",
    "Usbip.C87_text",
    "Usbip.C87_whole_text",
    "Usbip.C87_announced",
    "Usbip.C87_configuration",
    "Usbip.C87_setup",
    "Usbip.C87_example"
   ],
   "note": "The host is a reader of report descriptors and reports written from the HID specification (Spec/Hid.lean), not from the code; C87_keys and C87_release speak of what the handler returns, for all sequences of events and requests; C87_text and C87_whole_text for all texts and histories. That a release is six bytes instead of the eight announced is C38."
  },
  {
   "property": "C88",
   "status": "partial",
   "theorems": [
    "Usbip.C88_length",
    "Usbip.C88_when_partial",
    "Usbip.C88_handlers",
    "Usbip.C88_serial",
    "Usbip.C88_fails"
   ],
   "note": "False of the code: C88_fails is a write of five bytes of which 0 are reported. C88_length: the length reported is that of the data that come with the reply. C88_when_partial: 0 is reported, which is right exactly if there was nothing to write (debug builds; release builds for replies a client understands, which by C88_handlers all replies of the handlers of the library are). C88_serial is the same for the serial port over any server and state."
  },
  {
   "property": "C89",
   "status": "proved",
   "theorems": [
    "Usbip.C89_built",
    "Usbip.C89_enumerated"
   ],
   "note": "Spec/Build.lean: a plan says what was said, without string numbers. C89_built is the device on its own, C89_enumerated over the network (through C72). Assignments to the public vectors interfaces and endpoints are not among the steps."
  },
  {
   "property": "C90",
   "status": "partial",
   "theorems": [
    "Usbip.C90_found_partial",
    "Usbip.C90_fails_found",
    "Usbip.C90_configured",
    "Usbip.C90_text_partial",
    "Usbip.C90_example_partial",
    "Usbip.C90_fails_text"
   ],
   "note": "False of the code in two places. C90_fails_found: a host that insists on what the specification wants (call management descriptor, union with a data interface) finds no port in any such device; C90_found_partial: one that also accepts a collapsed interface, as Linux does, finds it in every such device. C90_fails_text: GET_ENCAPSULATED_RESPONSE, which every port has to answer, takes text away; C90_text_partial: without control IN requests to the port (drivers need none, the capabilities are 0) the text is read exactly; C90_example_partial is that for the example program. C90_configured: every class request that is OUT succeeds and loses nothing."
  },
  {
   "property": "C91",
   "status": "proved",
   "theorems": [
    "Usbip.C91_server",
    "Usbip.C91_explained",
    "Usbip.C91_reference",
    "Usbip.C91_accepting",
    "Usbip.C91_realised",
    "Usbip.C91_accepted",
    "Usbip.C91_answered",
    "Usbip.C91_served",
    "Usbip.C91_hangup",
    "Usbip.C91_completes"
   ],
   "note": "Model/Machine.lean puts the accept loop of C82 in front of the whole server of C81. C91_server, C91_explained, C91_reference: every reachable state; C91_realised: the converse; C91_accepting: accepting is always possible; C91_accepted, C91_served, C91_answered, C91_hangup, C91_completes: fair infinite executions (Spec/Machine.lean), by an execution of C84 inside (Lemmas/MachineLive.lean, Within: three steps for one, since accepting is connecting, hearing and hearing the end). submittedToProcess is a concrete fair execution."
  },
  {
   "property": "C92",
   "status": "proved",
   "theorems": [
    "Usbip.C92_exchange",
    "Usbip.C92_safe",
    "Usbip.C92_returned",
    "Usbip.C92_ends",
    "Usbip.C92_checked"
   ],
   "note": "Spec/Driver.lean is the host, written from the Linux sources as remembered, without any function of the model. C92_exchange: there is a log of requests and responses the host and the server agree on; C92_safe: every moment (Modest: below 2 GiB, no data for OUT; C92_checked: only the size in debug builds); C92_returned: fair infinite executions; C92_ends: how a connection ends. attachedToProcess is a concrete fair execution in which a host attaches a device and gets a transfer back."
  },
  {
   "property": "C93",
   "status": "proved",
   "theorems": [
    "Usbip.C93_keyboard",
    "Usbip.C93_text"
   ],
   "note": "Spec/Attended.lean states the two ends: what is put into a handler object (Uses) and what the driver of C92 has been given from the device (reportsRead). C93_keyboard: reports, safety at every moment and liveness in fair executions; C93_text: with the HID host of C87. The theorem for any handler object that hands out what it was given (Feeds) is `attended` (Lemmas/Attended.lean). typedOnce is a concrete fair execution."
  },
  {
   "property": "C94",
   "status": "proved",
   "theorems": [
    "Usbip.C94_serial",
    "Usbip.C94_fails_short"
   ],
   "note": "As C93, with bytes: C94_serial. wroteOnce is a concrete fair execution. C94_fails_short: the exception for replies that do not fit is needed."
  },
  {
   "property": "C95",
   "status": "proved",
   "theorems": [
    "Usbip.C95_said",
    "Usbip.C95_descriptors",
    "Usbip.C95_learned"
   ],
   "note": "C95_said, C95_descriptors, C95_learned. Devices may be added at any time; of all devices ever given to the server only this one has the bus id (Exported). lookedUp is a concrete fair execution in which a host reads the descriptors of a built device."
  },
  {
   "property": "C96",
   "status": "proved",
   "theorems": [
    "Usbip.C96_given"
   ],
   "note": "C96_given. Of all devices ever given to the server only this one has the bus id (Exported), and it is given before the host is accepted (Offered). The example is a concrete fair execution in which the host waits in the queue at time 2 and attaches the keyboard; no other client is let in there."
  },
  {
   "property": "C97",
   "status": "proved",
   "theorems": [
    "Usbip.C97_device"
   ],
   "note": "C97_device. Spec/Physical.lean states the two ends: the libusb calls made on the handle (usbCalls), and what the driver of C92 asks for and is given back (usbWanted, usbReturned). Of all devices ever given to the server only this one has the bus id and the handle (Shares). dealt is a concrete fair execution with four transfers through two interfaces that share a handle."
  },
  {
   "property": "C98",
   "status": "proved",
   "theorems": [
    "Usbip.C98_contest"
   ],
   "note": "C98_contest. Exported, Offered: as in C96. WantedBy, Awarded, Keeps, Spoiled: Spec/Contest.lean. The example is a concrete fair execution with three hosts: the first is given the device and attaches it, the second is refused, the first hangs up, the third is given it and attaches it."
  },
  {
   "property": "C99",
   "status": "proved",
   "theorems": [
    "Usbip.C99_back",
    "Usbip.C99_next",
    "Usbip.C99_in_turn"
   ],
   "note": "C99_back, C99_next, C99_in_turn. Exported, Offered: as in C96. GaveBack, OneByOne: Spec/Again.lean; WantedBy, Awarded, Spoiled: Spec/Contest.lean. The example is a concrete fair execution with three hosts, one after the other, the first two of which hang up; all three attach the device, which is added to the server while it runs."
  },
  {
   "property": "C100",
   "status": "proved",
   "theorems": [
    "Usbip.C100_keyboard",
    "Usbip.C100_serial"
   ],
   "note": "C100_keyboard, C100_serial. MainLoop, rounds, KeyboardHost, SerialHost, Driver.got, Driver.asked, Driver.Reads: Spec/Loop.lean; the transfers are told apart by direction and endpoint number only. That the main loop sleeps for a second is not modelled: any time may pass between rounds. The two examples are concrete fair executions of the programs with a host that attaches the device, and reads a 1 (with the report descriptor it has read) or an a."
  },
  {
   "property": "C101",
   "status": "proved",
   "theorems": [
    "Usbip.C101_lost"
   ],
   "note": "C101_lost. TookAlong, Denied: Spec/Lost.lean; GaveBack: Spec/Again.lean; Awarded, Spoiled: Spec/Contest.lean. This is what the code does, not what one would want: handler gives a device back only if it notices the end of the connection when reading. The example is a concrete fair execution with three hosts; the answer to the first cannot be written, and the two that come later are refused."
  },
  {
   "property": "C102",
   "status": "proved",
   "theorems": [
    "Usbip.C102_device"
   ],
   "note": "C102_device. Spec/NusbHost.lean states the two ends: the nusb calls made for the device (nusbMade), and what the driver of C92 asks for and is given back (nusbWanted, nusbReturned). nusbCode (Model/NusbMutex.lean) is src/host.rs:152-302 step by step; nusb_behaves and nusb_returns are the analogues of C86. The handlers of one device exclude each other in the model. That a bulk or interrupt transfer takes the device along is what the code does (todo!() in src/host.rs:219, 222), not what one would want. Two examples are concrete fair executions: one with four control transfers, one with a bulk transfer after which the server has no device any more."
  },
  {
   "property": "C103",
   "status": "proved",
   "theorems": [
    "Usbip.C103_values",
    "Usbip.C103_commands",
    "Usbip.C103_device",
    "Usbip.C103_replies"
   ],
   "note": "C103_values, C103_commands, C103_device, C103_replies. Model/Serde.lean writes down what the derive macros of serde generate, with documents of a self-describing format; what is assumed of serde is listed there. Reordered, Survives, ArraysFit, anonymous: Spec/Serde.lean. Model commands carry their arrays as lists, so C103_commands has their lengths as a hypothesis, and shows that reading guarantees them."
  },
  {
   "property": "C104",
   "status": "proved",
   "theorems": [
    "Usbip.C104_list",
    "Usbip.C104_shown"
   ],
   "note": "C104_list, C104_shown. Lister, ListLine, Listable, ShownAs, TrueOf: Spec/Listed.lean; WantedBy, Awarded, Keeps, Spoiled: Spec/Contest.lean. The list is read with decodeDevlist, the reader of C09 that is written from the protocol document. The example is a concrete fair execution with two hosts and two clients that look at the list: the first sees the device, then a host attaches it, the second client does not see it, the host hangs up and the other host attaches it."
  },
  {
   "property": "C105",
   "status": "proved",
   "theorems": [
    "Usbip.C105_fair",
    "Usbip.C105_served",
    "Usbip.C105_stuck"
   ],
   "note": "C105_fair, C105_served, C105_stuck. Pool and Outside (Spec/Workers.lean) say what is expected of the runtime and of the rest of the world; that a task in code without await is not put aside is part of Pool. C105_fair gives MachineExec.Fair, the hypothesis of the liveness theorems about processes from C91 on. Examples: two executions with one worker thread, one in which it serves a client and has nothing to do afterwards, and one in which it stays in a handler for ever."
  },
  {
   "property": "C106",
   "status": "proved",
   "theorems": [
    "Usbip.C106_freeze",
    "Usbip.C106_anyone",
    "Usbip.C106_happens",
    "Usbip.C106_comes",
    "Usbip.C106_silence",
    "Usbip.C106_silent"
   ],
   "note": "C106_freeze, C106_anyone, C106_happens; C106_comes and C106_silence are the last sentence, for infinite executions (Spec/Silence.lean), with C106_silent a case of them. This is what the code does, not what one would want: every command begins with the read lock on the used devices (src/lib.rs:411), a submit keeps it while its handler runs, and the lock of tokio lets no reader pass a waiting writer. Behaves is the hypothesis that the atomic description of the handlers agrees with their code. C106_happens: a concrete case with two devices and two clients."
  },
  {
   "property": "C107",
   "status": "proved",
   "theorems": [
    "Usbip.C107_silence",
    "Usbip.C107_anyone",
    "Usbip.C107_happens"
   ],
   "note": "C107_silence is the first part, C107_anyone and C107_happens the last sentence. This is what the code does, not what one would want: remove_device (src/lib.rs:360-383) takes the two locks in the other order than the import (434-435) and the giving back (395-396). C34_fails has one such state, and C34_only shows that there is no other way to get stuck; here the consequences, from every such state and for the whole server. An example beside the theorems has one device and a concrete bus id."
  },
  {
   "property": "C108",
   "status": "proved",
   "theorems": [
    "Usbip.C108_freeze",
    "Usbip.C108_import",
    "Usbip.C108_silence",
    "Usbip.C108_silent"
   ],
   "note": "C108_import (the reply is to an import: hin), C108_freeze and C108_silence are the three parts; the last is about infinite executions (Spec/Silence.lean), and C108_silent is a case of it. This is what the code does, not what one would want: replies are written with the read lock on the used devices held (src/lib.rs:411-521), an import writes its reply with the write lock, and the lock of tokio lets no reader pass a waiting writer. C49 has the wish that fails and, at the level of locks, single executions in which it does; here every execution, with sockets and handler code. Behaves is the hypothesis that the atomic description of the handlers agrees with their code."
  }
 ]
}