{"id": "C01", "title": "Commands survive the wire", "statement": "Reading a command from a socket that delivers the bytes `UsbIpCommand::to_bytes` produced for a well-formed command (followed by anything) returns exactly that command, and leaves exactly the bytes that followed unread.", "quantifier": "all commands of the four kinds that respect the declared lengths, all trailing bytes, both build profiles", "why_tests_cant": "command fields, payload sizes and trailing bytes are unbounded; tests sample one value per command kind", "anchors": ["src/usbip_protocol.rs: UsbIpCommand::to_bytes, UsbIpCommand::read_from_socket, UsbIpHeaderBasic"]}
{"id": "C02", "title": "Pipelined commands are framed exactly", "statement": "If a client writes any sequence of well-formed commands back to back, successive reads return exactly that sequence, in order, and then report the end of the stream.", "quantifier": "all finite sequences of well-formed commands", "why_tests_cant": "the number and mix of pipelined commands is unbounded", "anchors": ["src/usbip_protocol.rs: UsbIpCommand::read_from_socket", "src/lib.rs: handler"]}
{"id": "C03", "title": "TCP segmentation is invisible", "statement": "The command (or error) a read returns and the bytes it leaves depend only on the concatenated byte stream, never on how the network splits it into segments or how short individual reads are.", "quantifier": "all byte streams and all ways of splitting them into non-empty segments", "why_tests_cant": "there are exponentially many segmentations of every stream; a mock socket delivers one of them", "anchors": ["src/usbip_protocol.rs: UsbIpCommand::read_from_socket, UsbIpHeaderBasic::read_from_socket_with_command"]}
{"id": "C04", "title": "Foreign versions and unknown commands are refused", "statement": "A packet is turned into a command only if its version field is 0 or 0x0111 and its code is one of 0x8005, 0x8003, 0x0001, 0x0002; every other packet whose first four bytes arrive is refused with an error and yields no command.", "quantifier": "all byte streams", "why_tests_cant": "2^32 header values; tests try two", "anchors": ["src/usbip_protocol.rs: UsbIpCommand::read_from_socket"]}
{"id": "C05", "title": "A truncated command is never acted on", "statement": "When the peer closes the connection after any strict prefix of a well-formed command, the read reports UnexpectedEof (or, for any other socket failure, that failure) and no command is produced.", "quantifier": "all well-formed commands, all strict prefixes, all ways the stream can end", "why_tests_cant": "every cut point of every packet; tests only read complete packets", "anchors": ["src/usbip_protocol.rs: UsbIpCommand::read_from_socket"]}
{"id": "C06", "title": "Only canonical packets are accepted, and consumption is exact", "statement": "Whenever a read returns a command, the bytes it consumed are the encoding of that command except for the two version bytes and the 24 padding bytes of an unlink; in particular the payload and ISO descriptors have the lengths the packet declares.", "quantifier": "all byte streams accepted by the reader", "why_tests_cant": "ranges over every accepted byte string", "anchors": ["src/usbip_protocol.rs: UsbIpCommand::read_from_socket, to_bytes"]}
{"id": "C07", "title": "Replies identify the request they answer", "statement": "The reply to a submit (success or failure) and to an unlink carries the seqnum, devid, direction and endpoint of the request, with command code 3 respectively 4.", "quantifier": "all submit and unlink requests, all devices, handlers and server states", "why_tests_cant": "header values and handler behaviour are unbounded", "anchors": ["src/lib.rs: handler", "src/usbip_protocol.rs: UsbIpResponse"]}
{"id": "C08", "title": "Submit and unlink replies can be decoded by the client", "statement": "A protocol client that reads a 48-byte header and then, for an IN transfer, actual_length bytes recovers from the reply bytes exactly the header, status, length and data the server put in, and is positioned exactly at the next reply.", "quantifier": "all replies, all following bytes", "why_tests_cant": "payloads are unbounded", "anchors": ["src/usbip_protocol.rs: UsbIpResponse::to_bytes"]}
{"id": "C09", "title": "The device list can be decoded by the client", "statement": "A client that follows the documented OP_REP_DEVLIST layout (count, then per device 312 bytes plus 4 bytes per interface as announced by bNumInterfaces) recovers every device's fields and interface classes, in order, and ends exactly at the end of the reply; this is so exactly for the lists of fewer than 2^32 devices none of which has more than 255 interfaces.", "quantifier": "all device lists, all bytes that follow", "why_tests_cant": "number of devices and interfaces is unbounded", "anchors": ["src/usbip_protocol.rs: UsbIpResponse::op_rep_devlist, to_bytes", "src/device.rs: to_bytes_with_interfaces"]}
{"id": "C10", "title": "Device records have a fixed decodable layout", "statement": "Every exported device record is exactly 312 bytes whatever the lengths of path and bus id, and the path, bus id (up to zero padding), numbers, ids, version, class and interface count can be read back at their documented offsets.", "quantifier": "all devices", "why_tests_cant": "field values and string lengths are unbounded", "anchors": ["src/device.rs: UsbDevice::to_bytes"]}
{"id": "C11", "title": "SETUP packets are parsed little-endian without loss", "statement": "Parsing the 8 SETUP bytes yields the fields whose USB little-endian encoding is those 8 bytes, so distinct SETUP packets parse to distinct values.", "quantifier": "all 2^64 SETUP packets", "why_tests_cant": "domain too large to enumerate", "anchors": ["src/setup.rs: SetupPacket::parse"]}
{"id": "C12", "title": "Standard descriptor replies honour wLength", "statement": "For every GET_DESCRIPTOR answered by the library, the reply is exactly the first min(wLength, full length) bytes of the full descriptor, whenever the full descriptor is shorter than 65536 bytes. A longer one is cut to wLength exactly when wLength is less than its length modulo 65536, or covers all of it; otherwise it is returned whole.", "quantifier": "all devices, all descriptor types and indices, all wLength", "why_tests_cant": "all 65536 wLength values times unbounded devices", "anchors": ["src/device.rs: UsbDevice::handle_urb"]}
{"id": "C13", "title": "The configuration descriptor is self-consistent", "statement": "The full configuration descriptor has wTotalLength equal to its length and, when every class specific block is itself a valid descriptor sequence, passes `verify_descriptor` and walks as: one configuration header announcing the number of interfaces, then per interface its interface descriptor (announcing its number of endpoints), its class specific bytes and exactly its endpoint descriptors, in order. Of any device, however large, the length and the number of interfaces are announced as they are exactly when they fit their fields.", "quantifier": "all devices with at most 255 interfaces, 255 endpoints per interface and total length < 65536", "why_tests_cant": "interface and endpoint lists are unbounded", "anchors": ["src/device.rs: UsbDevice::handle_urb", "src/util.rs: verify_descriptor"]}
{"id": "C14", "title": "String descriptors decode to the configured text", "statement": "For every string of at most 126 UTF-16 units stored on the device, the descriptor returned for its index announces its own length in bLength and decodes as UTF-16LE to exactly the stored Unicode text, including characters outside the BMP.", "quantifier": "all Unicode strings up to the descriptor limit, all indices", "why_tests_cant": "unbounded text", "anchors": ["src/device.rs: UsbDevice::handle_urb (String)"]}
{"id": "C15", "title": "Asking for an unknown string is an error reply, not a failure of the connection", "statement": "GET_DESCRIPTOR for a string index the device does not define yields a submit reply with non-zero status and no data, the connection keeps its device and continues with the next command.", "quantifier": "all devices, all undefined indices, all server states", "why_tests_cant": "ranges over all indices, devices and continuations", "anchors": ["src/device.rs: UsbDevice::handle_urb", "src/lib.rs: handler"]}
{"id": "C16", "title": "Device strings behave like independent named slots", "statement": "Under any sequence of new / with_interface / set_* / unset_* calls that stays within the 254-string capacity, each of the configuration, manufacturer, product, serial and interface names that is set has a non-zero index of its own whose string descriptor is the last name set for that slot; set and unset return the previous name of that slot; no call disturbs another slot.", "quantifier": "all sequences of builder and setter calls, all names", "why_tests_cant": "histories are unbounded", "anchors": ["src/device.rs: UsbDevice::{new,with_interface,set_*,unset_*,new_string}"]}
{"id": "C17", "title": "String capacity is exactly 254 in checked builds, and what happens beyond it", "statement": "Allocating a string succeeds with the smallest free index in 1..254; when all of those are taken a build with overflow checks panics, and a build without hands out 255, then 0 (which the host reads as 'no string'), then never returns.", "quantifier": "all string pools, both build profiles", "why_tests_cant": "needs 255+ allocations and both profiles", "anchors": ["src/device.rs: UsbDevice::new_string"]}
{"id": "C18", "title": "Endpoint lookup is exact", "statement": "An endpoint address resolves to endpoint zero of the device if it is 0x80 or 0x00, otherwise to the first endpoint with that address in interface order together with its owning interface, and to nothing exactly when no interface declares it.", "quantifier": "all devices built through the public constructors, all addresses", "why_tests_cant": "unbounded interface lists", "anchors": ["src/device.rs: UsbDevice::find_ep"]}
{"id": "C19", "title": "A URB reaches exactly the handler it is addressed to", "statement": "A transfer to a non-control endpoint invokes only the handler of the interface owning that endpoint, with the request's length, setup and data; a control transfer addressed to interface n invokes only interface (n mod 256)'s handler; standard descriptor requests and SET_CONFIGURATION invoke no handler; the reply data is exactly what that handler returned.", "quantifier": "all devices, endpoints, setups, payloads, handler behaviours and handler states", "why_tests_cant": "handlers are arbitrary user code", "anchors": ["src/device.rs: UsbDevice::handle_urb"]}
{"id": "C20", "title": "Exactly which requests crash URB processing", "statement": "Processing a URB panics if and only if: the string descriptor for a string whose bLength computation overflows is requested in an overflow-checked build; or a control request is addressed to a missing interface, to the device without a device handler, or to an endpoint/other recipient (unless it is GET_DESCRIPTOR(device) in / SET_CONFIGURATION out); or the endpoint's attributes exceed 3; or a data endpoint that belongs to no interface is used; or the addressed handler is poisoned or panics itself.", "quantifier": "all devices, requests and handler behaviours, both build profiles", "why_tests_cant": "absence of panics over all inputs", "anchors": ["src/device.rs: UsbDevice::handle_urb"]}
{"id": "C21", "title": "SET_CONFIGURATION answers without touching handlers", "statement": "SET_CONFIGURATION on endpoint zero succeeds with no data when wLength is 0, with the single current configuration value otherwise, invokes no handler and changes no device state.", "quantifier": "all devices and setups", "why_tests_cant": "unbounded devices and values", "anchors": ["src/device.rs: UsbDevice::handle_urb"]}
{"id": "C22", "title": "A device is imported by at most one connection", "statement": "As long as no two devices on the server share a bus id, at every moment of every history no two live connections have the same device imported.", "quantifier": "all interleavings of any number of connections, commands, failures, cancellations, additions and removals", "why_tests_cant": "schedules are unbounded", "anchors": ["src/lib.rs: handler, UsbIpServer"]}
{"id": "C23", "title": "Devices are neither lost nor duplicated", "statement": "As long as no two devices on the server share a bus id, at every moment each device ever given to the server and not successfully removed is exactly once in the union of the available list and the imported set, unchanged.", "quantifier": "all interleavings and histories", "why_tests_cant": "schedules are unbounded", "anchors": ["src/lib.rs: handler, add_device, remove_device"]}
{"id": "C24", "title": "A closed connection gives its device back", "statement": "As long as no two devices on the server share a bus id: when a connection that holds a device ends because the peer closed it, the socket failed on read, or a malformed packet arrived, its device is available for listing and import again. In histories where every connection ends that way and imports at most while holding nothing, a device is unavailable only while some live connection holds it.", "quantifier": "all interleavings and histories, all ways of ending a read", "why_tests_cant": "all crash points of all histories", "anchors": ["src/lib.rs: handler"]}
{"id": "C25", "title": "A refused import changes nothing for others", "statement": "An import for a bus id that matches no available device is answered with a bare failure reply (8 bytes, status 1) and leaves the available list and the imported set as they were.", "quantifier": "all server states and bus ids", "why_tests_cant": "all states", "anchors": ["src/lib.rs: handler", "src/usbip_protocol.rs: op_rep_import_fail"]}
{"id": "C26", "title": "The device list shows exactly the available devices", "statement": "The reply to OP_REQ_DEVLIST describes exactly the devices that are available at that moment, in order, and nothing that is imported. (Each device has at most 255 interfaces, as the format of the list requires; in a build with debug assertions, path and bus id fit their fields.)", "quantifier": "all reachable server states", "why_tests_cant": "all histories", "anchors": ["src/lib.rs: handler"]}
{"id": "C27", "title": "Import selects by exact bus id", "statement": "A granted import takes the first available device whose bus id equals the request's bytes up to the first NUL, describes that very device in the reply and makes it the connection's device; a request is granted if and only if such a device exists. (For the reply, in a build with debug assertions: path and bus id fit their fields.)", "quantifier": "all server states and all 32-byte bus id fields", "why_tests_cant": "2^256 bus id fields", "anchors": ["src/lib.rs: handler"]}
{"id": "C28", "title": "remove_device reports the truth", "statement": "remove_device removes exactly the first available device with that bus id and returns Ok; if there is none but one is imported it returns an error of kind Other and changes nothing; otherwise it returns NotFound and changes nothing. It never takes a device away from a connection. With other calls and connections running at the same time this holds of the tables as they are at one moment during the call.", "quantifier": "all server states and bus ids, all schedules", "why_tests_cant": "all histories and interleavings", "anchors": ["src/lib.rs: UsbIpServer::remove_device"]}
{"id": "C29", "title": "add_device makes a device listable and importable", "statement": "After add_device, in any state, the device is the last one available, and an import of its bus id (which has at most 32 bytes and no NUL, so that it can be asked for) succeeds and describes the device taken: a device of that bus id, this one unless another was available before; other devices are unaffected. (In a build with debug assertions, paths fit their field.)", "quantifier": "all server states and devices", "why_tests_cant": "all histories", "anchors": ["src/lib.rs: UsbIpServer::add_device"]}
{"id": "C30", "title": "One reply per command, in order", "statement": "While a connection is live, the bytes it has sent are the concatenation, in request order, of exactly one reply per command it has read; a command that is answered is answered before the next command is read.", "quantifier": "all histories and interleavings", "why_tests_cant": "unbounded command sequences and schedules", "anchors": ["src/lib.rs: handler"]}
{"id": "C31", "title": "Connections are isolated", "statement": "A step of one connection never changes another connection's input, output, imported device or liveness, even when it fails, panics or is cancelled; and if bus ids are unique it never changes the device another connection has imported.", "quantifier": "all states, all events", "why_tests_cant": "all interleavings", "anchors": ["src/lib.rs: handler, server"]}
{"id": "C32", "title": "URBs without an imported device are never executed", "statement": "A submit on a connection that has no device imported reaches no handler and produces no reply: the connection's task panics, everything else on the server is unchanged.", "quantifier": "all states, all submit requests", "why_tests_cant": "all histories", "anchors": ["src/lib.rs: handler"]}
{"id": "C33", "title": "Unlink is answered truthfully and harmlessly", "statement": "An unlink is always answered with status 0, which in the protocol means the URB had already completed: every submit that preceded it on the connection has already been answered; the unlink invokes no handler and changes no server state.", "quantifier": "all histories, all unlink requests", "why_tests_cant": "unbounded histories", "anchors": ["src/lib.rs: handler"]}
{"id": "C34", "title": "No deadlock between connections and device management", "statement": "Whatever the number of concurrent connections, additions and removals, and however the runtime schedules them, some pending operation can always make progress.", "quantifier": "all schedules of any number of concurrent tasks over the two fair reader-writer locks", "why_tests_cant": "deadlocks depend on rare schedules", "anchors": ["src/lib.rs: handler, add_device, remove_device"]}
{"id": "C35", "title": "Concurrent operations are atomic", "statement": "Any concurrent execution of imports, releases, listings, additions and removals has the effect of executing them one at a time in the order in which they held their locks, and every call returns what it returns in that order.", "quantifier": "all schedules of any number of tasks", "why_tests_cant": "interleavings are unbounded", "anchors": ["src/lib.rs: handler, add_device, remove_device"]}
{"id": "C36", "title": "The keyboard delivers key events in order, each followed by a release", "statement": "For any interleaving of queued key events and interrupt-IN polls, the non-empty reports delivered are exactly the queued events in FIFO order, each followed by one key-up report before the next event; no event is lost or repeated, and a poll with nothing pending returns no data.", "quantifier": "all interleavings of pushes and polls", "why_tests_cant": "unbounded histories", "anchors": ["src/hid.rs: UsbHidKeyboardHandler::handle_urb"]}
{"id": "C37", "title": "ASCII to key code mapping", "statement": "from_ascii accepts exactly a-z, 0-9, CR and LF, maps them to the HID usage ids 4-29, 30-39 and 40 with no modifier and a single key, is injective except that CR and LF coincide, and panics on every other byte.", "quantifier": "all 256 bytes", "why_tests_cant": "exhaustive over the domain, including panics", "anchors": ["src/hid.rs: UsbHidKeyboardReport::from_ascii"]}
{"id": "C38", "title": "Keyboard reports match the declared report size", "statement": "Every report the keyboard delivers has the size its own report descriptor declares.", "quantifier": "all states of the keyboard", "why_tests_cant": "requires interpreting the descriptor for all states", "anchors": ["src/hid.rs: UsbHidKeyboardHandler"]}
{"id": "C39", "title": "Serial data is delivered exactly once, in order", "statement": "For any interleaving of application writes to tx_buffer and bulk-IN polls, the concatenation of the bulk-IN replies followed by what is still buffered equals the bytes written, provided no control-IN or isochronous-IN request is sent to the interface; and whatever is sent, all replies together followed by what is still buffered equal the bytes written.", "quantifier": "all interleavings of writes and transfers", "why_tests_cant": "unbounded histories", "anchors": ["src/cdc.rs: UsbCdcAcmHandler::handle_urb"]}
{"id": "C40", "title": "Control requests do not consume serial data", "statement": "A control-IN request to the serial interface does not return or consume buffered serial data.", "quantifier": "all handler states and control requests", "why_tests_cant": "all requests", "anchors": ["src/cdc.rs: UsbCdcAcmHandler::handle_urb"]}
{"id": "C41", "title": "Replies never exceed what the client asked for", "statement": "The data of a successful IN reply is never longer than the request's transfer_buffer_length.", "quantifier": "all requests, devices and handlers", "why_tests_cant": "all handlers and lengths", "anchors": ["src/device.rs: handle_urb", "src/lib.rs: handler", "src/cdc.rs", "src/hid.rs", "src/host.rs"]}
{"id": "C42", "title": "libusb pass-through forwards each transfer once and faithfully", "statement": "The rusb handlers forward each URB to exactly the libusb call of its transfer type and direction with the request's parameters, return exactly the bytes libusb read (never more than transfer_buffer_length), never fail or panic, and turn every libusb error into an empty success.", "quantifier": "all URBs, all libusb behaviours that respect its length contract", "why_tests_cant": "external behaviour is arbitrary", "anchors": ["src/host.rs: RusbUsbHostInterfaceHandler, RusbUsbHostDeviceHandler"]}
{"id": "C43", "title": "nusb pass-through: what is forwarded and what crashes", "statement": "The nusb interface handler forwards control transfers whose type and recipient bits are defined and returns exactly what was read; it panics exactly on reserved type or recipient bits and on every bulk or interrupt transfer; isochronous transfers succeed with no data. The nusb device handler forwards every control request with defined type and recipient bits and panics exactly on the others; on Windows it forwards nothing, and answers every request on which it does not panic with success and no data.", "quantifier": "all URBs, all nusb behaviours that respect its length contract", "why_tests_cant": "external behaviour is arbitrary", "anchors": ["src/host.rs: NusbUsbHostInterfaceHandler, NusbUsbHostDeviceHandler"]}
{"id": "C44", "title": "verify_descriptor accepts exactly descriptor sequences", "statement": "verify_descriptor returns normally exactly on concatenations of blocks that start with their own non-zero length; on a zero length byte at a block boundary it never returns; otherwise it panics.", "quantifier": "all byte strings", "why_tests_cant": "unbounded inputs, includes non-termination", "anchors": ["src/util.rs: verify_descriptor"]}
{"id": "C45", "title": "Device versions are reported as given", "statement": "The bcdDevice a client sees (in the exported record and the device descriptor) equals the 16-bit BCD version the host device reported.", "quantifier": "all 16-bit versions", "why_tests_cant": "65536 values", "anchors": ["src/device.rs: Version, to_bytes, handle_urb"]}
{"id": "C46", "title": "Shared host devices get distinct importable bus ids", "statement": "Two host devices that differ in bus number or address get different bus ids, and every such bus id fits the 32-byte import field without NUL, so it can be imported.", "quantifier": "all host devices", "why_tests_cant": "all 2^24 triples", "anchors": ["src/lib.rs: with_rusb_device_handles, with_nusb_devices"]}
{"id": "C47", "title": "Devices with equal bus ids destroy each other", "statement": "All devices made by UsbDevice::new share one bus id. If two available devices share a bus id and two connections import it in turn, both are told they succeeded, the first device is dropped from the server for good, when the first connection closes the second one's device is put back in the available list, and the second connection's next URB or its close panics.", "quantifier": "all servers with two equal bus ids", "why_tests_cant": "needs specific interleavings over all devices", "anchors": ["src/lib.rs: handler", "src/device.rs: UsbDevice::new"]}
{"id": "C48", "title": "The client can decode the whole conversation", "statement": "For any command sequence on a connection, a client that knows which commands it sent recovers from the server's byte stream exactly the sequence of replies, provided no OUT transfer returned data.", "quantifier": "all histories of a connection", "why_tests_cant": "unbounded conversations", "anchors": ["src/lib.rs: handler", "src/usbip_protocol.rs: UsbIpResponse::to_bytes"]}
{"id": "C49", "title": "A client that stops reading does not stall the server", "statement": "Whichever clients stop reading their replies, and whenever, the commands of all other clients are still answered: no connection blocked on sending a reply keeps other connections from importing, listing, submitting or unlinking.", "quantifier": "all schedules", "why_tests_cant": "depends on schedules and back-pressure", "anchors": ["src/lib.rs: handler"]}
{"id": "C50", "title": "Memory reserved is bounded by data received", "statement": "While reading a packet the server never reserves more memory than a constant plus the bytes the client has actually sent.", "quantifier": "all byte streams", "why_tests_cant": "all streams, including malicious lengths", "anchors": ["src/usbip_protocol.rs: UsbIpCommand::read_from_socket"]}
{"id": "C51", "title": "A crashed handler poisons exactly itself", "statement": "After a handler panics while processing a URB, every later URB addressed to that same handler panics without running it, from any connection; URBs to other handlers behave as before. The same holds after the application panics with the handler's mutex in its hands.", "quantifier": "all histories", "why_tests_cant": "unbounded histories", "anchors": ["src/device.rs: handle_urb"]}
{"id": "C52", "title": "Shared host devices present the host's strings", "statement": "For a shared host device the strings a client reads for manufacturer, product, serial number and interfaces are the ones the host device reported.", "quantifier": "all host devices", "why_tests_cant": "all descriptors", "anchors": ["src/lib.rs: with_rusb_device_handles, with_nusb_devices"]}
{"id": "C53", "title": "Losing a device is permanent, and exactly how it happens", "statement": "As long as no two devices on the server share a bus id, a device is lost exactly when its connection sends another import, fails on a write, panics or is dropped (while waiting for a command or in the middle of a reply); from then on, in every continuation in which nobody adds a device with that bus id, it is neither listed nor importable nor removable.", "quantifier": "all histories and all continuations", "why_tests_cant": "all crash points and continuations", "anchors": ["src/lib.rs: handler"]}
{"id": "C54", "title": "Transfer direction is interpreted consistently", "statement": "The direction that decides whether a submit packet carries payload is the direction in which the transfer is executed and answered.", "quantifier": "all submit packets, both build profiles", "why_tests_cant": "all 2^32 directions and endpoints", "anchors": ["src/usbip_protocol.rs: read_from_socket", "src/lib.rs: handler"]}
{"id": "C55", "title": "Endpoint numbers are not aliased", "statement": "A submit is executed on an endpoint only if the request named that endpoint.", "quantifier": "all submit packets", "why_tests_cant": "all 2^32 endpoint numbers", "anchors": ["src/lib.rs: handler", "src/device.rs: find_ep"]}
{"id": "C56", "title": "Device-level descriptors state the device's identity", "statement": "The device descriptor, device qualifier and BOS answered to a client are the blocks USB prescribes for the device's own versions, class triple, ids, string indices, control packet size and number of configurations (cut to the requested length).", "quantifier": "all devices and requested lengths", "why_tests_cant": "all field values", "anchors": ["src/device.rs: handle_urb"]}
{"id": "C57", "title": "Isochronous requests get isochronous replies", "statement": "A submit for n isochronous packets is answered with n packet results.", "quantifier": "all isochronous submits", "why_tests_cant": "all packet counts and devices", "anchors": ["src/lib.rs: handler", "src/usbip_protocol.rs: usbip_ret_submit_success"]}
{"id": "C58", "title": "Keys typed reach the clients, once and in order", "statement": "With a keyboard behind the server, beside any other devices and handlers, every poll by any client is answered with the next unread item of 'each queued key pressed, then released' or no data; if no reply is lost on the way the reports received over all connections are an initial part of that sequence.", "quantifier": "all servers with a keyboard, all clients, all histories", "why_tests_cant": "all interleavings of clients, application and failures", "anchors": ["src/hid.rs: UsbHidKeyboardHandler", "src/lib.rs: handler", "examples/hid_keyboard.rs"]}
{"id": "C59", "title": "Serial bytes reach the clients, once and in order", "statement": "With a serial port behind the server, beside any other devices and handlers, what clients receive over all connections is a subsequence of what was written; if only the bulk endpoint is read and no reply is lost, received and still buffered bytes together are exactly the bytes written.", "quantifier": "all servers with a serial port, all clients, all histories", "why_tests_cant": "all interleavings of clients, application and failures", "anchors": ["src/cdc.rs: UsbCdcAcmHandler", "src/lib.rs: handler", "examples/cdc_acm_serial.rs"]}
{"id": "C60", "title": "Clients cannot end the example programs", "statement": "Whatever clients send, the keyboard and serial example programs keep running.", "quantifier": "all histories of the example programs, all build profiles", "why_tests_cant": "all client behaviours", "anchors": ["examples/hid_keyboard.rs: main", "examples/cdc_acm_serial.rs: main", "src/hid.rs: handle_urb"]}
{"id": "C61", "title": "No operation is overtaken while it waits", "statement": "While an operation (a request of a client, an addition, a removal) waits for one of the server's two device tables, the table is only given to operations that had asked for it earlier, and to each of them at most once.", "quantifier": "all concurrent executions of any number of clients and management calls, all moments at which an operation asks", "why_tests_cant": "fairness of waiting quantifies over all interleavings and all later arrivals", "anchors": ["src/lib.rs: handler, add_device, remove_device", "src/lib.rs: UsbIpServer (the two RwLocks)"]}
{"id": "C62", "title": "No operation is starved", "statement": "If tasks are scheduled fairly, handlers return and clients read their replies, then every request and management call that was started ends (or its task is dropped), however many others keep arriving, as long as no remove_device call for a device that is not available is waiting for the imported devices; without that condition there is an execution in which a client's import never ends.", "quantifier": "all infinite fair executions, all handlers, all build profiles", "why_tests_cant": "liveness over infinite executions", "anchors": ["src/lib.rs: handler, add_device, remove_device"]}
{"id": "C63", "title": "Bounded work per operation", "statement": "Each request takes at most 16 scheduling steps after its start (lock requests and grants, table accesses, handler call, reply, end), adding a device at most 7 and removing one at most 10, independently of the number of devices, connections and concurrent operations; a granted import takes 16, an addition 7, the removal of an unknown device 10.", "quantifier": "all concurrent executions", "why_tests_cant": "all interleavings; absence of livelock", "anchors": ["src/lib.rs: handler, add_device, remove_device"]}
{"id": "C64", "title": "Shared host devices present the host's identity", "statement": "For a shared host device the device descriptor and the exported record a client reads carry the host device's own USB version, device version, class, control packet size, ids, configuration value and counts.", "quantifier": "all host devices (libusb and nusb), all library states", "why_tests_cant": "all descriptor values", "anchors": ["src/lib.rs: with_rusb_device_handles, with_nusb_devices", "src/device.rs: Version, handle_urb"]}
{"id": "C65", "title": "Shared host devices present the host's configuration", "statement": "For a shared host device the configuration descriptor a client reads consists of the blocks of the host device's own configuration descriptor.", "quantifier": "all host devices, all configurations", "why_tests_cant": "all descriptor trees", "anchors": ["src/lib.rs: with_rusb_device_handles, with_nusb_devices", "src/device.rs: handle_urb"]}
{"id": "C66", "title": "Shared host devices announce the host's speed", "statement": "The speed announced for a shared host device is the USB/IP number of the speed the host device runs at.", "quantifier": "all host devices", "why_tests_cant": "needs host devices of every speed", "anchors": ["src/lib.rs: with_rusb_device_handles, with_nusb_devices", "src/consts.rs: UsbSpeed"]}
{"id": "C67", "title": "Interface requests reach the interface they are meant for", "statement": "A control request a client addresses to an interface of a shared host device, by the number in that interface's published descriptor, is performed exactly once by the host, on the host interface that descriptor was made from, and its data is what the client gets.", "quantifier": "all host devices, library behaviours and interface requests", "why_tests_cant": "all interface numberings", "anchors": ["src/lib.rs: with_rusb_device_handles", "src/device.rs: handle_urb", "src/host.rs: RusbUsbHostInterfaceHandler"]}
{"id": "C68", "title": "Every request reaches its handler exactly once, in order", "statement": "Over any history the state behind the handlers evolves exactly as if the handler calls asked for by the clients' requests (and the application's own changes) were made one after the other, each once, in order of execution and with the request's own data; each client is sent the answer of the call its own request led to; a handler is marked as crashed exactly if one of these calls crashed it or the application panicked with its mutex in its hands.", "quantifier": "all handlers, all clients, all histories, all build profiles", "why_tests_cant": "arbitrary handler behaviour and interleavings of any length", "anchors": ["src/lib.rs: handler", "src/device.rs: handle_urb, find_ep"]}
{"id": "C69", "title": "A shared libusb device performs exactly what clients ask", "statement": "With a libusb device shared beside any other devices, libusb is called exactly once per request to the device that is not isochronous, in order of execution, with the endpoint, setup and data of the request, and never otherwise; the client is sent what libusb read, and nothing for an isochronous request; no request can crash the shared device's handlers (the application can, by panicking with a handler's mutex in its hands).", "quantifier": "all libusb behaviours honest about lengths, all clients, all histories", "why_tests_cant": "all library behaviours and interleavings of any length", "anchors": ["src/lib.rs: with_rusb_device_handles, handler", "src/host.rs: RusbUsbHostInterfaceHandler, RusbUsbHostDeviceHandler"]}
{"id": "C70", "title": "Clients do not affect each other", "statement": "A client that has imported a device, and from then on only submits and unlinks, is sent exactly the bytes (and its connection ends exactly the way) it would be if it were the server's only client and its device the server's only device, whatever other clients do, whatever handlers of other devices do (including crashing) and whatever devices are added or removed, as long as the other devices do not use the same handler objects.", "quantifier": "all handlers, all other clients, all histories before and after, all build profiles", "why_tests_cant": "noninterference compares pairs of executions of any length", "anchors": ["src/lib.rs: handler, add_device, remove_device", "src/device.rs: handle_urb"]}
{"id": "C71", "title": "Requests are answered by the device imported last", "statement": "On every connection, every submit that is answered is answered by the very device named in the last import reply on that connection: exactly the device that was given to the server under that bus id, with its descriptors, endpoints and handlers; after a refused import no submit is answered. While the connection is live that device is recorded as imported.", "quantifier": "all handlers, all clients, all histories in which bus ids stay unique, all build profiles", "why_tests_cant": "the device may be released, removed and replaced by other clients and the application at any point of any interleaving", "anchors": ["src/lib.rs: handler, UsbIpServer, add_device, remove_device", "src/device.rs: handle_urb, find_ep"]}
{"id": "C72", "title": "Enumeration over the wire reveals exactly the device", "statement": "A client that imports a device and sends the usual enumeration requests (device descriptor, configuration header, whole configuration, strings) can read from the bytes it gets back, with an independent decoder, exactly the identity, the tree of interfaces, class specific blocks and endpoints, and the strings of the device that was given to the server under the bus id it named, whatever other clients do meanwhile. Conditions: the sizes fit the descriptor fields (at most 255 interfaces and endpoints per interface, less than 65536 bytes, strings of at most 126 units), class specific blocks are well formed, endpoint zero is the usual one.", "quantifier": "all devices within the stated sizes, all other clients, all histories, all build profiles, all sets of strings asked for", "why_tests_cant": "descriptor trees, pipelines and interleavings are unbounded", "anchors": ["src/device.rs: handle_urb, setters and descriptor generation", "src/lib.rs: handler", "src/usbip_protocol.rs: read_from_socket, to_bytes"]}
{"id": "C73", "title": "Clients may react to what they are sent", "statement": "When clients send their bytes piece by piece, choosing what to send in reaction to anything that has happened, the server ends up in exactly a state that clients saying everything in advance can bring it to, so everything proved of those holds for interactive clients too; what the server does never depends on bytes that have not been sent yet. A command is waited for exactly until its last byte has arrived: before that scheduling the connection changes nothing, after that it is executed without waiting for anything more. Four bytes that cannot start a command are refused at once.", "quantifier": "all handlers, all histories of arrivals in pieces of any size, all continuations, all build profiles", "why_tests_cant": "the splitting of the byte streams, the interleaving and the clients' strategies are unbounded", "anchors": ["src/lib.rs: handler, server", "src/usbip_protocol.rs: read_from_socket"]}
{"id": "C74", "title": "Exactly what crashes a connection", "statement": "The task serving a live connection panics if and only if: the next command is a submit and nothing is imported; or it is a submit the device crashes on (the addressed handler panics or has panicked before, the request names an interface, device handler or recipient that is not there, the endpoint has no interface or an unknown transfer type, with overflow checks a string is too long); or, only in builds with debug assertions, a packet carries a status other than zero or a direction that is neither 0 nor 1, a device's path or bus id does not fit its reply record, or a transfer that is not IN is answered with data. Unlinks, malformed versions and codes, truncated packets and disconnects never do. A crash sends nothing and touches no other connection.", "quantifier": "all handlers, all histories in which bus ids stay unique, all byte streams, all build profiles", "why_tests_cant": "an equivalence over all inputs and reachable states", "anchors": ["src/lib.rs: handler", "src/device.rs: handle_urb, to_bytes", "src/usbip_protocol.rs: read_from_socket, to_bytes"]}
{"id": "C75", "title": "Handler code is atomic although it runs concurrently", "statement": "Handler code runs step by step while other handlers, other connections and the application go on; several submits can be in handler code at once. Whatever the interleaving, the outcome is that of an execution in which each handler call happens at once, in the order in which the calls end: same replies, same connections, same tables, and every handler object nobody is using is in the same state. An object is used by one task or application thread at a time, and by no task after one of them has panicked with it. If handler code always returns, no call is ever stuck behind the mutexes. If one call does not return, no device can be imported or given back on the whole server as long as it lasts.", "quantifier": "all handler programs with any number of steps, all interleavings with any number of connections and application threads, all build profiles", "why_tests_cant": "interleavings of unboundedly many steps; non-returning code cannot be waited for", "anchors": ["src/lib.rs: handler", "src/device.rs: handle_urb", "src/interface.rs: UsbInterface::handler"]}
{"id": "C76", "title": "The server is a reference server written from the protocol", "statement": "Whatever clients and application do, the server cannot be told apart from a reference server written down independently of its code: one that cuts the incoming bytes into requests at the fields' documented offsets, keeps a list of free devices and who holds which, answers listings, claims, transfers and cancellations with the documented records, passes transfers to the device's addressed handler and gives the device back when its client leaves. Every byte sent to every client, every client's state, the list of free devices, the result of every removal and the state behind the handlers are the same, with clients that say everything in advance, that send piece by piece and react, and at every moment of a concurrent execution. Condition: no device is added under a bus id that another device has; without it a client can be answered by a device it never imported.", "quantifier": "all devices, all handlers, all byte streams and arrivals, all histories and interleavings, all build profiles", "why_tests_cant": "equivalence of two state machines over unbounded histories of arbitrary input", "anchors": ["src/lib.rs: handler, add_device, remove_device", "src/device.rs: handle_urb, find_ep, to_bytes", "src/usbip_protocol.rs: read_from_socket, to_bytes"]}
{"id": "C77", "title": "Exactly the chosen host devices are shared", "statement": "A server made from the host's devices starts with exactly one device for every host device that the filter accepts and the USB library can open and describe, in the order of enumeration; each shows its host device's bus, address, port, vendor, product and interface classes, and its requests go to the handlers of that host device. A filter may remember what it was asked. Devices that cannot be opened or described are left out and do not matter for the others. Starting fails exactly if one of the accepted devices has an interface without settings, announces a string that cannot be read (libusb), has an interface that cannot be claimed or an unknown speed (nusb). The bus ids are different, so what is proved under that condition applies.", "quantifier": "all hosts, all filters with any memory, all build profiles", "why_tests_cant": "all combinations of host devices, failures and filters", "anchors": ["src/lib.rs: new_from_host_with_filter, with_rusb_devices, with_rusb_device_handles, with_nusb_devices"]}
{"id": "C78", "title": "The example programs deliver what they are written to deliver", "statement": "The keyboard example types the key 1 once a second: whatever clients do and however they share it, the reports they receive are the beginning of pressed, released, pressed, released, ... with one press for every second the program has been running, and a poll gets the first report nobody has received yet, or nothing if there is none. The serial example writes one letter a per second: what clients read and what is still buffered are together exactly one a per second, and a read gets all that nobody has read yet. Both devices announce exactly the interface and endpoints these requests go to, and are listed as high-speed devices 0-0-0 with that one interface. Conditions: the requests say IN and their replies can be sent; the keyboard has not been crashed (see C60); no isochronous or control transfer in IN direction reaches the serial port, and the serial program has run for less than 2^32 seconds.", "quantifier": "all histories of the two programs with any clients, all build profiles", "why_tests_cant": "the clients' behaviour, the interleaving with the once a second loop and the running time are unbounded", "anchors": ["examples/hid_keyboard.rs: main", "examples/cdc_acm_serial.rs: main", "src/hid.rs: handle_urb", "src/cdc.rs: handle_urb", "src/lib.rs: handler"]}
{"id": "C79", "title": "Replies and requests cross the network in pieces while others are served", "statement": "Bytes arrive at any moment, also in the middle of serving the same client; replies leave in pieces as the client reads, with the server's locks held; tasks interleave in any way and are dropped at any point. At every moment every client has received a beginning of what a server working off one operation at a time, in the order in which the operations took effect, has sent to it, and all of it once its request is done; handlers, tables and the unread input are those of that server (and, with unique bus ids, of the reference server of C76). Conversely everything such a server does can happen. Which locks are taken when does not depend on bytes that have not arrived. While anything is pending, a task can get further or a client can be handed the next byte of its reply, unless a removal waits for the table of imported devices.", "quantifier": "all handlers, all splittings of input and replies, all interleavings with any number of connections and management calls, all build profiles", "why_tests_cant": "interleavings of scheduling, arrival and reading are unbounded", "anchors": ["src/lib.rs: handler, server, add_device, remove_device", "src/usbip_protocol.rs: read_from_socket, write_to_socket"]}
{"id": "C80", "title": "What clients of a device shared through nusb get", "statement": "Over any history of a server that shares a device through nusb beside arbitrary others: nusb is called exactly once for each control request that goes to one of the device's handlers, in the order of execution, with the type, recipient, request, value, index and data of the submit (reads with a buffer of the submit's length), and never otherwise; every client is sent exactly what nusb read for its submit, nothing if nusb failed. A handler of the device crashes exactly if it is asked for a bulk or interrupt transfer, or for a request of a reserved type or recipient, or if the application panics with its mutex in its hands; in the first two cases that client gets no reply, and in all of them nusb is never called through that handler again. Condition: nusb does not claim to have read more than the buffer holds.", "quantifier": "all host devices, all other handlers, all histories with any number of clients, all build profiles", "why_tests_cant": "histories and host behaviour are unbounded", "anchors": ["src/host.rs: NusbUsbHostInterfaceHandler, NusbUsbHostDeviceHandler", "src/lib.rs: handler", "src/device.rs: handle_urb"]}
{"id": "C81", "title": "Handler code runs while everything else goes on", "statement": "The full picture: handler code runs step by step behind its handler's mutex, the application uses handler objects through the same mutexes, bytes arrive and replies leave piece by piece on any connection, tasks interleave in any way and are dropped at any point outside handler code. Whatever happens is what a server does that works off one operation at a time, in the order in which the operations took effect (a handler call when the handler returns): same handler states (of every handler nobody is using), same crashes, same tables, same unread input, every client has received a beginning of what it is sent, and all of it between commands. Conversely, if handlers return, everything such a server does happens, if the application acts on one handler at a time. A handler object is used by one at a time and never by the server after a panic; a handler is entered while others run and replies are half sent. If handlers return, every handler call can be completed whatever the clients do, and something can always get further (condition of C34); a handler that never returns keeps every client from importing a device or giving one back.", "quantifier": "all handler code, all splittings of input and replies, all interleavings, all build profiles", "why_tests_cant": "interleavings of handler code, scheduling, arrival and reading are unbounded", "anchors": ["src/lib.rs: handler, server, add_device, remove_device", "src/device.rs: handle_urb", "src/usbip_protocol.rs: read_from_socket, write_to_socket"]}
{"id": "C82", "title": "server accepts clients in order and until it is dropped", "statement": "A call of `server` that can bind its address listens until its future is dropped or the runtime shut down: no client, accept error, panic of a connection or a handler, other call of `server` on the same UsbIpServer or management call ends it (it never returns). Clients are accepted in the order in which they connected; what a client sends before it is accepted is not lost, and accepting it changes nothing for anybody else. Accept errors change nothing; a failed bind panics the caller and changes nothing else. Dropping a call affects no accepted connection, then or later. A shutdown ends all calls and connections and leaves the tables as they are. Accepting needs no lock and no handler. Otherwise server and connections do exactly what they do in the histories of C73: everything shown for those holds with calls of `server` too, and all of them happen with a single call.", "quantifier": "all histories of any number of calls of server, clients, accept errors, drops, shutdowns, all handlers, all build profiles", "why_tests_cant": "the number of clients, their timing and the accept errors are unbounded", "anchors": ["src/lib.rs: server, handler"]}
{"id": "C83", "title": "What arrives is answered", "statement": "If tasks, clients and locks go on (nothing that stays possible is put off for ever; clients read what they are sent) and no removal waits for the table of imported devices, then: a request that has arrived in full at a running connection is answered, and its client gets the whole answer, no matter what other clients do; any number of requests sent at once are answered, in their order, one response each; what follows a request stays for the next. After a client has hung up, or has sent something that is no request, all its requests so far are answered, its device is given back and its connection is over for good. Every management call returns. Exceptions, named in the statement: the task panics on the request, the task is dropped, or writing to its socket fails. Both conditions are needed: one client that does not read its reply keeps the request of another from ever being answered.", "quantifier": "all infinite executions of the server on sockets, all handlers, all splittings of input and replies, any number of clients, all build profiles", "why_tests_cant": "liveness of infinite executions; no test can wait for ever or try all schedules", "anchors": ["src/lib.rs: handler, server, add_device, remove_device", "src/usbip_protocol.rs: read_from_socket, write_to_socket"]}
{"id": "C84", "title": "What arrives is answered while handler code runs", "statement": "As C83, for the full picture: handler code runs step by step behind its handler's mutex, and threads of the application use handler objects through the same mutexes. If handler code always returns, no application thread keeps a handler for ever, a call that finds its handler's mutex free again and again gets it (the mutexes have no queue), and tasks, clients and locks go on, then every request that has arrived in full is answered and the client gets the whole answer; any number of requests, in their order; after a hangup or a malformed packet the earlier requests are answered and the connection is over for good, with its device given back; every management call returns; every handler becomes free again. Exceptions and the condition on removals as in C83. That handler code returns is needed: in every execution, fair or not, in which a command is inside handler code that never returns, its connection is stuck as it is for ever (nothing sent, nothing read, the task cannot be dropped), and no device is imported or given back by any client from then on.", "quantifier": "all infinite executions of the whole server, all handler code, all application threads, all splittings of input and replies, all build profiles", "why_tests_cant": "liveness of infinite executions with code of unknown length; no test can wait for ever or try all schedules", "anchors": ["src/lib.rs: handler, server, add_device, remove_device", "src/device.rs: handle_urb", "src/usbip_protocol.rs: read_from_socket, write_to_socket"]}
{"id": "C85", "title": "The example programs as processes", "statement": "Each example makes a server, spawns `server` as a task and loops for ever. The keyboard and the serial example always get as far as their loop; the host example does exactly if no usable device of the host is defective (C77). The serial and the host example never end, whatever clients do; the keyboard example has ended exactly if its loop has come round after a client sent the keyboard a control request other than the two it knows. While the spawned task has not bound its address, and for good if that fails (port in use), the program runs on, feeds its handler every second and serves nobody: there is no connection, and everybody who connects is refused. Once bound it listens as long as the program lives; everybody who connects from then on is let in or waiting to be. What clients that connect, send in pieces and react receive is what C78 says, under the conditions there: the reports are the beginning of pressed, released, ... with one press per second, a poll gets the first report nobody has received; the letters read and the letters buffered are together one per second, a read gets all that nobody has read.", "quantifier": "all histories of the programs: bind results, connects, accepts and accept errors, arrivals, hangups, iterations, seconds; all build profiles", "why_tests_cant": "the clients' behaviour, its interleaving with the main loop and the running time are unbounded", "anchors": ["examples/host.rs: main", "examples/hid_keyboard.rs: main", "examples/cdc_acm_serial.rs: main", "src/lib.rs: server, handler"]}
{"id": "C86", "title": "What a libusb that misreports a length does, and one libusb call at a time", "statement": "Over any history of a server that shares a libusb device beside arbitrary others, with a libusb that may claim anything: which calls are made, what each client is sent and what becomes of the device is fixed by what libusb answers. The first time libusb claims to have read more than it was asked for, the client that asked gets no reply and its connection is over; from then on the device is dead, through all of its handlers and for every client: libusb is never called for it again and every request to it ends the connection it came on with nothing sent. Of everything else only the handler that was asked is affected: tables, other handlers and other clients stay as they are. Calls of one device never overlap, also those of different handlers and different clients with handler code running step by step and the application using the same handle, and a handle that nobody is using is as if the requests had been served one at a time.", "quantifier": "all libusb behaviours, any number of shared devices and handles, all other handlers, all histories, all interleavings, all build profiles", "why_tests_cant": "library misbehaviour, histories and interleavings are unbounded", "anchors": ["src/host.rs: RusbUsbHostInterfaceHandler, RusbUsbHostDeviceHandler", "src/lib.rs: with_rusb_device_handles, handler", "src/device.rs: handle_urb"]}
{"id": "C87", "title": "A host that knows HID reads what is typed", "statement": "The keyboard's interface announces, in the HID descriptor of its configuration, the length its report descriptor really has; whoever has the keyboard and asks the interface for the report descriptor is sent exactly that, whoever sets the idle rate is told it succeeded, in every state of the program, and neither crashes the keyboard. Read by the rules of the HID specification, that report descriptor makes the report of a key event mean exactly the modifiers and keys of the event, and the report of a release mean that no key is down (if what is missing of a short report counts as zero). So if the application types a text with from_ascii, then what the clients receive, whatever they do and over all connections, reads as the beginning of that text, one character for every second report, and after a poll that finds nothing as the whole text; carriage return and line feed read as Enter. The host of the keyboard example reads the digit 1 over and over, at most once a second.", "quantifier": "all key events, all texts of characters from_ascii knows, all other devices and handlers, all client histories, all build profiles", "why_tests_cant": "texts, key events and poll histories are unbounded, and the existing test only compares the length byte of one descriptor", "anchors": ["src/hid.rs: UsbHidKeyboardHandler, UsbHidKeyboardReport::from_ascii, handle_urb, get_class_specific_descriptor", "examples/hid_keyboard.rs: main"]}
{"id": "C88", "title": "The reply to a write says how much was written", "statement": "The reply to a successful OUT transfer reports as its length the number of bytes of the request that were transferred, as the reply to a successful IN transfer reports the number of bytes read.", "quantifier": "all OUT requests, devices, handlers, server states and build profiles", "why_tests_cant": "all handlers and request data", "anchors": ["src/usbip_protocol.rs: usbip_ret_submit_success, UsbIpResponse::to_bytes", "src/lib.rs: handler", "src/device.rs: handle_urb"]}
{"id": "C89", "title": "A device built with the API presents what was said about it", "statement": "Any sequence of calls of the builder and naming API and of assignments to the plain public fields, on a device made by UsbDevice::new(n), succeeds as long as there are at most 254 names at a time. Then, if what was said fits the descriptors (counts in a byte, the configuration in 64 KiB, names of at most 126 UTF-16 units, class specific data made of descriptors), what a client decodes is what was said last: its record in device lists and import replies, the device descriptor, and the configuration descriptor with the interfaces in the order in which they were added, each with its class, class specific descriptors and endpoints, where every string number is 0 for no name and otherwise reads as the name. What was not said has its default: path /sys/bus/0/0/0, bus id 0-0-0, device number n, high speed, one configuration with number 1, four default names. The handlers are those given. This also holds for what a client receives over the network from a server with any history and any other clients.", "quantifier": "all sequences of API calls and assignments, all device numbers, all server histories, all build profiles", "why_tests_cant": "sequences of calls and histories are unbounded; the existing tests build four fixed devices", "anchors": ["src/device.rs: UsbDevice::new, with_interface, with_device_handler, set_*, unset_*, new_string, handle_urb, to_bytes", "src/lib.rs: handler"]}
{"id": "C90", "title": "A host that knows CDC ACM uses the serial port", "statement": "A host that reads the configuration of any device with a serial port (class CDC, subclass ACM, the endpoints and handler of the library) finds, by the rules of the CDC and PSTN specifications, a port with a notification endpoint and two data endpoints, whatever else the device has. The requests with which it sets the port up succeed and lose none of the text. And as long as clients use the port as its descriptors allow, whatever they do and over all connections, what they read from the data endpoint is exactly the text the application wrote, in order, without gap or repetition, and what they have not read yet waits to be read.", "quantifier": "all devices built with the API, all class requests, all other devices and handlers, all client histories, all build profiles", "why_tests_cant": "devices, requests and histories are unbounded, and no existing test parses the descriptors as a host does", "anchors": ["src/cdc.rs: UsbCdcAcmHandler, endpoints, handle_urb, get_class_specific_descriptor", "src/device.rs: handle_urb, with_interface", "examples/cdc_acm_serial.rs: main"]}
{"id": "C91", "title": "A client of a whole process is let in and answered", "statement": "In a process that calls `server` any number of times, with clients that connect and send before they are let in, connection tasks that wait for locks and write replies in pieces, handler code that runs step by step and an application that uses handler objects and the management calls: (1) at every moment the process is the one that does one operation at a time in the order in which the operations take effect: the same calls and queues, the same clients waiting, refused or let in, the same tables, handler objects and connections wherever nobody is in the middle of something, and every client has received a beginning of what it is sent there (also compared with the reference server of C76). (2) Whatever tasks, locks and handlers are doing, the first client in a queue can be let in at once. (3) If the process goes on (as in C84; accept does not fail for ever) everybody who waits at a call of `server` that is not dropped is let in with everything they have said, and all their requests are answered in order and the answers reach them, also if they have hung up; a client that hangs up, before or after it is let in, gives its device back; management calls return. Exceptions and conditions as in C83 and C84. (4) Everything the server can do in C81 it does in a process with a single call of `server`.", "quantifier": "all executions of a process, finite and infinite: all calls of server, accept errors, drops, clients, interleavings of tasks, locks, sockets, handler code and application; all handlers, all build profiles", "why_tests_cant": "interleavings, clients and running time are unbounded; no test has a scheduler that tries all of them", "anchors": ["src/lib.rs: server, handler, add_device, remove_device", "src/device.rs: handle_urb", "src/usbip_protocol.rs: read_from_socket, write_to_socket"]}
{"id": "C92", "title": "A Linux host gets its transfers back", "statement": "A host that does what Linux does (usbip attach and the vhci_hcd driver: import a device; then send a submit for every transfer the system wants, under a number that is not in use, and an unlink for every transfer it wants to cancel, at any time and without waiting; read replies as they come in, in pieces of any size, with nothing but the bytes to go by) is a client of any process with this server. At every moment: the host has a device only if the server granted it one with the bus id asked for; it has been refused only if the server refused it; the transfers given back, in order, followed by those pending are exactly the transfers asked for (none lost, swapped, given back twice or taken back for a cancellation), and each was given back with the status and the data the server had for its request; and the host finds the connection broken if and only if it has received a reply with more data than its transfer asked for. If the process goes on (as in C91) and the line works, every transfer asked for is given back, cancelled or not, and every attach is decided; unless a reply did not fit, the host hung up, or the connection's task panicked, was dropped or could not write, which are also the only ways for the connection to end. (In release builds replies to OUT transfers with data must be excluded, see C08; replies of 2 GiB or more always.)", "quantifier": "all executions of a process, all hosts, all numbers, transfers, cancellations and their timing, all splittings of what is received, all other clients, all handlers, all build profiles", "why_tests_cant": "the driver, the interleaving with the server, the splitting of the bytes and the number of transfers are unbounded; the existing tests read replies with the same code that writes them", "anchors": ["src/lib.rs: handler, server", "src/usbip_protocol.rs: UsbIpCommand, UsbIpResponse", "src/device.rs: handle_urb, to_bytes"]}
{"id": "C93", "title": "What is typed into a keyboard arrives at the host", "statement": "A process exports a device with a keyboard (from the start, or it is added later; no other device it is ever given has its bus id or this keyboard), its application types (adds key events to the keyboard, at any time, from any thread), and a Linux host (as in C92) has attached the device; other clients, other devices, other handlers and disconnects may go on beside it. At every moment, the reports the host's USB core has been given, leaving out empty ones, are one by one and in order the press and release reports of the keys typed so far, from the first one that no earlier client has read (from the very first if nobody else connects); none is lost, changed, repeated or out of order. Once the host has sent two more polls than there are reports of the keys typed before some moment, it is given all of these reports; unless the connection ends, its task crashes, or a reply did not fit its request. If the keys are those of a text then a host that knows nothing but HID reads this text.", "quantifier": "all executions of a process, all hosts, all keys, times and numbers of uses, all polls, cancellations and splittings of the bytes, all other clients and handlers, all build profiles", "why_tests_cant": "goes from one end (the application's calls) to the other (the host's USB core) through threads, locks, sockets and the protocol, in all interleavings", "anchors": ["src/hid.rs: UsbHidKeyboardHandler", "src/lib.rs: handler, server", "src/device.rs: handle_urb"]}
{"id": "C94", "title": "What is written to a serial port arrives at the host", "statement": "A process exports a device with a serial port (CDC ACM; from the start, or it is added later; no other device it is ever given has its bus id or this port), its application writes bytes into it (at any time, from any thread), and a Linux host (as in C92) has attached the device. At every moment, the bytes the host's USB core has been given by bulk IN transfers, in order, are the bytes written so far, from the first one that no earlier client has read (from the very first if nobody else connects). Once the host has sent two more bulk IN transfers than bytes were written before some moment, it is given all of these bytes; unless the connection ends, its task crashes, or a reply did not fit its request (the port sends all it has, however little was asked for). The port is used through bulk, interrupt and OUT transfers only (others lose data, C40).", "quantifier": "all executions of a process, all hosts, all bytes, times and numbers of writes, all transfers, cancellations and splittings of the bytes, all other clients and handlers, all build profiles", "why_tests_cant": "goes from one end (the application's writes) to the other (the host's USB core) through threads, locks, sockets and the protocol, in all interleavings", "anchors": ["src/cdc.rs: UsbCdcAcmHandler", "src/lib.rs: handler, server", "src/device.rs: handle_urb"]}
{"id": "C95", "title": "A Linux host learns what was said about a device", "statement": "A process exports a device (from the start, or it is added later), with a bus id no other device it is ever given has, and a Linux host (as in C92) has attached it; other clients, other devices, other handlers and disconnects may go on beside it. At every moment: each transfer given back to the host's USB core is what this device, and no other, says to it. Each descriptor the host reads is the device's descriptor, cut to the length asked for, or an error for a string the device does not have. If the device was built with the API (as in C89) and what was said fits the descriptors, then the record in the reply to the import request, the device descriptor, the configuration descriptor (first nine bytes for its length, then all of it) and the strings that the host reads tell it what was said: numbers, classes, versions, interfaces and endpoints in their order, class specific descriptors, names. And every transfer asked for is given back some time; unless the connection ends, its task crashes, or a reply did not fit its request.", "quantifier": "all executions of a process, all hosts, all devices built with the API, all sets of other devices, all orders and lengths of descriptor reads, all other transfers, cancellations, clients and handlers, all build profiles", "why_tests_cant": "goes from the calls that describe a device to what the host's USB core is given, through threads, locks, sockets and the protocol, in all interleavings", "anchors": ["src/device.rs: UsbDevice, handle_urb", "src/lib.rs: handler, server", "src/usbip_protocol.rs: UsbIpResponse"]}
{"id": "C96", "title": "A Linux host is given the device it asks for if nobody else asks for it", "statement": "A process exports a device, with a bus id no other device it is ever given has, and a Linux host (as in C92) asks for it; the device is there from the start, or is added before the server accepts the host. The application does not remove it, and no other client asks for it: what the others send are requests, but no import of this device (they may import other devices, use them, ask for device lists, crash handlers, come and go), or it is anything at all in which the bus id does not occur. Then the host is never refused: the first thing it is answered is that it has been given this device; and once it waits at a call of `server` that is not dropped, some time it has attached the device and holds the record of this device; unless the connection ends, its task crashes, or a reply did not fit its request.", "quantifier": "all executions of a process, all hosts, all sets of devices, all other clients and whatever they send, all handlers, all build profiles", "why_tests_cant": "what other clients do, and when, is unbounded; a device that gets lost in some interleaving would show only there", "anchors": ["src/lib.rs: handler, server", "src/device.rs: to_bytes", "src/usbip_protocol.rs: UsbIpCommand::read_from_socket"]}
{"id": "C97", "title": "A Linux host uses a device shared through libusb", "statement": "A process shares a device with the libusb handlers (any number of interfaces and a device handler on one handle; from the start, or it is added later; no other device it is ever given has its bus id or this handle), and a Linux host (as in C92) attaches it; other clients, other devices and handlers go on beside it; the application does not use the handle itself. Whatever libusb answers (errors, short reads, lengths past the buffer), there is a place in the sequence of all libusb calls made on the handle (its beginning, if nobody else connects) such that at every moment the transfers the host's USB core has been given back from these handlers are, one by one and in order, the answers to the calls from there on: each says success and carries the bytes this call has read, for the transfer that asked for exactly this call. Whenever the server is between two requests of the host and nobody uses the handle, all calls made from there on were asked for by the host, in its order, and made once each: none is made up, skipped, repeated or swapped. And every transfer asked for is given back some time; unless the connection ends, its task crashes, or a reply did not fit its request.", "quantifier": "all executions of a process, all hosts, all libraries and device states, all transfers, cancellations and splittings of the bytes, all other clients, devices and handlers, all build profiles", "why_tests_cant": "goes from the host's USB core to the libusb calls on a physical device and back, through threads, locks, sockets and the protocol, in all interleavings; it cannot be tested without hardware", "anchors": ["src/host.rs: RusbUsbHostInterfaceHandler, RusbUsbHostDeviceHandler", "src/lib.rs: handler, server", "src/device.rs: handle_urb"]}
{"id": "C98", "title": "One Linux host at a time has the device", "statement": "A process exports a device (from the start, or it is added later), with a bus id no other device it is ever given has, and any number of Linux hosts (as in C92) ask for it. Whatever other clients do: if two hosts both have been given the device, or both have attached it, then one of them has hung up; and if one has it and another is given it later, the first has hung up by then. If nobody but the hosts asks for the device, and it is there when a host is accepted (as in C96), then a host that is not given it was refused at a moment at which another host had been given it and had it still: its connection was being served, or its task crashed, was dropped or could not write, without giving the device back. And once a host waits at a call of `server` that is not dropped, some time it has attached the device, or it is refused and another host has attached it; unless for one of the two the connection ends, its task crashes, or a reply did not fit its request.", "quantifier": "all executions of a process, any number of hosts, all sets of devices, all other clients and whatever they send, all times of arrival, hanging up and being served, all handlers, all build profiles", "why_tests_cant": "who asks first, who hangs up when, and how the tasks interleave is unbounded; a test sees one race at a time", "anchors": ["src/lib.rs: handler, server", "src/usbip_protocol.rs: UsbIpCommand::read_from_socket", "src/device.rs: to_bytes"]}
{"id": "C99", "title": "The device is there again for the next host", "statement": "A process exports a device, with a bus id no other device it is ever given has, and Linux hosts (as in C92) ask for it, after it is there; nobody else does (as in C98). A client that hangs up gives back what it has for good: some time its connection has ended and has no device, and it stays so; unless its task panicked, was dropped or could not write. A host is given the device if, when its request is handled, every other host that was given it has given it back; such a host is never refused, and once it waits at a call of `server` that is not dropped, some time it has attached the device; unless its connection ends, its task crashes, or a reply did not fit its request. In particular, if hosts are served one after the other (of any two that have been accepted, the connection of one has ended), any number of them, then each of them is given the device.", "quantifier": "all executions of a process, any number of hosts, one after the other or not, all sets of devices, all other clients and whatever they send, all times of arrival, hanging up and being served, all handlers, all build profiles", "why_tests_cant": "a device must survive any number of hosts that come and go, at any moment and in the middle of anything; a test tries a few", "anchors": ["src/lib.rs: handler, server", "src/usbip_protocol.rs: UsbIpCommand::read_from_socket"]}
{"id": "C100", "title": "A Linux host that attaches an example program reads the program's text", "statement": "The keyboard program (examples/hid_keyboard.rs) exports one keyboard and types the key 1 again and again; the serial program (examples/cdc_acm_serial.rs) exports one serial port and writes the character a again and again. A Linux host (as in C92) asks for the device; any number of other clients may be there. Keyboard: if the host's control transfers have the lengths that their SETUP packets say, and it polls with room for the 8 bytes the endpoint announces and reads the report descriptor with room for the number of bytes announced, then every response fits its request: the host never closes the connection. Each report descriptor it reads is the keyboard's; and at every moment the reports it has been given are, by this descriptor, a text of 1s only, no more than the program has typed (less those that clients before it have read). Serial port: if the host does not ask the interface for anything with control transfers, then what it has been given by bulk reads is a text of a's only, no more than the program has written (less those that others have read). Both: all that was typed or written up to some moment is read once the host has asked often enough after that; if no other client asks for the device, the host is not refused, and attaches it some time; unless the connection ends or its task crashes (or, for the serial port, a reply did not fit its request).", "quantifier": "all executions of the programs, all hosts that use the device as described, all transfers, cancellations and splittings of the bytes, all other clients and whatever they send, any time between the rounds, all build profiles", "why_tests_cant": "goes from the main loop of a program to the text a host reads, through threads, locks, sockets, the protocol and the HID report format, in all interleavings, for programs that run for ever", "anchors": ["examples/hid_keyboard.rs: main", "examples/cdc_acm_serial.rs: main", "src/hid.rs: UsbHidKeyboardHandler", "src/cdc.rs: UsbCdcAcmHandler", "src/lib.rs: handler, server"]}
{"id": "C101", "title": "A device that is not given back is lost for all hosts", "statement": "A process exports a device, with a bus id no other device it is ever given has, and Linux hosts (as in C92) ask for it. A host that was given the device and whose connection is over has given the device back, or has taken it along: its task has ended with the device still marked as used. The latter is so for certain if the task panicked or was dropped. Once anybody (a host, or any other client) has taken the device along, that stays so for ever; the device is not in the list of devices any more; and each host that was not answered before is told that there is no such device, does not attach it, and, if it waits at a call of `server` that is not dropped, is refused some time; unless its connection ends, its task crashes, or a reply did not fit its request.", "quantifier": "all executions of a process, any number of hosts, all sets of devices, all other clients and whatever they send, all moments and ways in which a task ends, all handlers, all build profiles", "why_tests_cant": "what a crash does to everybody who comes later is a statement about all future behaviour; and the moments at which a task may end are many", "anchors": ["src/lib.rs: handler, server", "src/usbip_protocol.rs: UsbIpResponse::write_to_socket"]}
{"id": "C102", "title": "A Linux host uses a device shared through nusb", "statement": "On a system other than Windows, a process shares a device with the nusb handlers (any number of interfaces and a device handler; from the start, or it is added later; no other device it is ever given has its bus id or these handlers), and a Linux host (as in C92) attaches it; other clients, other devices and handlers go on beside it; the application does not use nusb for the device itself; nusb may fail, and never claims to have read more than there is room for. There is a place in the sequence of all nusb calls made for the device (its beginning, if nobody else connects) such that at every moment the transfers the host's USB core has been given back from calls of nusb are, one by one and in order, the answers to the calls from there on: each says success and carries the bytes this call has read, for the transfer that asked for exactly this call. Whenever the server is between two requests of the host, whose connection goes on, and nobody uses the device, all calls made from there on were asked for by the host, in its order, and made once each. Every transfer asked for is given back some time; unless the connection ends, its task crashes, or a reply did not fit its request. A transfer with which a handler crashes (one to a bulk or interrupt endpoint, or one whose setup packet has a reserved request type or recipient) is never given back; and a host that asks for such a transfer takes the device away from everybody, for ever: the task of its connection ends without giving the device back (so by C101 no host attaches it any more); unless the connection is gone for another reason, or a reply did not fit its request.", "quantifier": "all executions of a process, all hosts, all nusb behaviours that keep to the buffer and all device states, all transfers, cancellations and splittings of the bytes, all other clients, devices and handlers, all build profiles", "why_tests_cant": "goes from the host's USB core to the nusb calls on a physical device and back, through threads, locks, sockets and the protocol, in all interleavings; it cannot be tested without hardware; and that a device is lost for ever is about all future behaviour", "anchors": ["src/host.rs: NusbUsbHostInterfaceHandler, NusbUsbHostDeviceHandler", "src/lib.rs: with_nusb_devices, handler, server", "src/device.rs: handle_urb"]}
{"id": "C103", "title": "What is written with serde is read back as what it was", "statement": "With the `serde` feature and a self-describing format such as JSON: a setup packet, endpoint, version, request header, keyboard report, whole keyboard handler (with what it has still to send), speed, class code, transfer type, standard request or descriptor type that was written is read back as exactly what it was, and so is a command, in whatever order the entries of the objects come back. No document is read as a command whose bus id does not have 32 bytes or whose setup packet does not have 8. Devices and replies can only be written: every device can be, and its document says all about it but its handlers. Two devices have documents that agree but for the order of entries exactly if they are the same but for their handlers; then they have the same record in the device list, the same endpoints at all addresses, and the same answer to every GET_DESCRIPTOR request. Two replies whose documents agree in this way go over the network as the same bytes.", "quantifier": "all values, all documents, all orders of the entries at all depths, all orders in which the string table is written, all build profiles", "why_tests_cant": "the values and the orders are unbounded; a field that is skipped, or a name used twice, shows only in values that differ there", "anchors": ["src/setup.rs: SetupPacket", "src/endpoint.rs: UsbEndpoint", "src/usbip_protocol.rs: UsbIpHeaderBasic, UsbIpCommand, UsbIpResponse", "src/device.rs: UsbDevice, Version", "src/interface.rs: UsbInterface", "src/hid.rs: UsbHidKeyboardHandler, UsbHidKeyboardReport", "src/consts.rs: UsbSpeed, ClassCode, EndpointAttributes"]}
{"id": "C104", "title": "The list of devices shows what can be had", "statement": "A process exports a device, with a bus id no other device it is ever given has, and Linux hosts (as in C92) ask for it; a further client sends a request for the list of devices and nothing else (as `usbip list -r` does). All devices the process is given have at most 255 interfaces, there are fewer than 2^32 of them, and in a build with debug assertions their bus ids and paths fit their fields. What the client has received, as soon as it can be read, is a list of devices, with nothing after it, that says what these devices are. It is the list at one moment after the client's request had arrived; all devices in it had been given to the process before; if the exported device is in it, it is in it once, nothing else in it has its bus id, and each host that was given it before has hung up. If nobody but the hosts asks for the device (as in C98; its path has at most 256 bytes): a device the process has been given is missing in the list only if a host has it; and if it is in the list, then a host whose request had not been handled is given it, unless some other host is given it first: that host is never refused, and once it waits at a call of `server` that is not dropped, some time it has attached the device; unless its connection ends, its task crashes, or a reply did not fit its request. The client's task never panics, and in a fair execution (as in C91) the client, once it waits at a call of `server` that is not dropped, and if its request and the reply are delivered, has some time received a whole list; unless it ends its side, or its task is dropped or cannot write.", "quantifier": "all executions of a process, any number of hosts and other clients and whatever they send, all sets of devices that can be listed, all times of arrival, hanging up and being served, all splittings of the bytes, all handlers, all build profiles", "why_tests_cant": "the list must agree with what an import request some time later finds, whatever other clients do at the same time; a test tries a few moments", "anchors": ["src/lib.rs: handler, server", "src/usbip_protocol.rs: UsbIpResponse::op_rep_devlist, UsbIpResponse::to_bytes", "src/device.rs: to_bytes, to_bytes_with_interfaces"]}
{"id": "C105", "title": "One worker thread is enough, unless a handler never returns", "statement": "A process runs on a runtime with at least one worker thread. A thread is kept by a task while the task waits for a handler's mutex or is inside a handler (there is no `await`), and only then can it be kept for ever; a task that could go on gets a thread some time, if threads become free again and again. If handlers return, no thread of the application keeps a handler's mutex for ever, clients go on receiving and `accept` does not fail for ever, then the execution is fair in the sense of C91, whatever the number of threads and of blocked tasks: each task that could go on does so some time. So what C91 and the properties after it say about fair executions of such a process holds on one thread; in particular every client that has connected to a call of `server` and has sent requests is accepted and gets its answers, all of them and in order (under the conditions of C91). But once there are as many commands that stay inside handlers for ever as there are threads, nothing happens any more but steps of these handlers: nothing is read from any client, no other command goes on or is begun, nobody is accepted.", "quantifier": "all executions of a process, all numbers of worker threads, all ways in which tasks are given to threads, all clients and whatever they send, all handlers, all build profiles", "why_tests_cant": "a test runs on one machine with one number of threads; a deadlock needs all threads to be blocked at the same time", "anchors": ["src/lib.rs: handler, server, add_device, remove_device", "src/device.rs: handle_urb"]}
{"id": "C106", "title": "A handler that never returns and one import request stop the server for everybody", "statement": "A command is inside a handler that never returns, and another client's import request (or the giving back of a device when a client hangs up) waits until it may change the table of used devices. Then, unless the task of the latter is dropped, for ever: neither of the two commands is answered, and no client whose connection was between two commands at that moment, or who connects later, receives a single byte, whatever it sends (even if it asks only for the list of devices), and none of its commands is acted upon. Whenever a command is inside a handler that never returns and nobody waits for the table of used devices, it takes one more client that asks for a device, any device, whether it is there or not, to bring this about. And it must come so: if, while a command is inside such a handler, an import request has arrived on a connection that is between two commands, then, provided that tasks that can run are run at some time, that arrived bytes are read, and that no task is dropped, there is a time from which on no client receives a byte.", "quantifier": "all executions, all handlers, all numbers of clients and whatever they send, all devices and bus ids, all moments, all build profiles", "why_tests_cant": "that nobody is answered ever again is about all future behaviour; the combination of a slow handler and a waiting writer on a fair lock shows only under load", "anchors": ["src/lib.rs: handler", "src/device.rs: handle_urb"]}
{"id": "C107", "title": "An import and a removal that wait for each other stop the server for good", "statement": "A client's import request, or the giving back of its device when it hangs up, has locked the table of used devices and needs the available ones, and a call of `remove_device` has locked the available ones and needs the used ones. Then, for as long as neither of these two tasks is dropped, whatever clients, application and handlers do: both stay where they are; no client, present or future, is sent a single byte, not even the rest of a reply; no `add_device` and no `remove_device` takes effect; the two tables do not change. Whenever nothing is in progress, one new client that asks for a device, any device, whether it is there or not, and a call of `remove_device` for a device that is not available can bring this about; so a server that has just started can come to never send anybody anything.", "quantifier": "all executions, all states, all sets of devices, all handlers and applications, all numbers of clients and whatever they send, all bus ids, all build profiles", "why_tests_cant": "that nobody is answered ever again is about all future behaviour; the deadlock needs one of many interleavings of two short critical sections, which a test hardly ever hits", "anchors": ["src/lib.rs: remove_device, add_device, handler"]}
{"id": "C108", "title": "A client that does not read its reply and one import request stop the server for everybody", "statement": "A client has not received the whole of the reply to a command, and receives nothing more (it does not read, or the network does not deliver; the connection does not fail either). If the reply is to an import, no client at all receives a byte in the meantime. If it is to any other command, and an import request (or the giving back of a device when a client hangs up) waits until it may change the table of used devices, then, for as long as neither of the two tasks is dropped: neither gets on, and no client whose connection was between two commands at that moment, or who connects later, receives a single byte, whatever it sends, and none of its commands is acted upon. And it must come so: if an import request for any device has arrived on a connection that is between two commands, then, provided that tasks that can run are run at some time, that arrived bytes are read, and that no task is dropped, there is a time from which on no client receives a byte.", "quantifier": "all executions, all commands and replies and all places in the reply, all handlers, all numbers of clients and whatever they send, all devices and bus ids, all moments, all build profiles", "why_tests_cant": "that nobody is answered ever again is about all future behaviour; it needs a client that stops reading when the buffers of its connection are full, and another one that imports", "anchors": ["src/lib.rs: handler", "src/usbip_protocol.rs: UsbIpResponse::write_to_socket"]}
