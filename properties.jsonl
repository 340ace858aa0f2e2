{"id": "C01", "title": "Header round trip", "statement": "Decoding the bytes of any encoded message header followed by any body returns exactly that header (same key length, key bytes, sequence-number width and value) and exactly that body.", "quantifier": "every header (4 key lengths x 3 sequence widths, all key bytes and sequence values) and every trailing byte string", "why_tests_cant": "2^96 headers and unbounded bodies; the unit test checks five literals", "anchors": ["source/postcard-rpc/src/header.rs: VarHeader::write_to_vec", "source/postcard-rpc/src/header.rs: VarHeader::take_from_slice"]}
{"id": "C02", "title": "Header encoding is canonical and prefix-free", "statement": "If a byte string decodes to a header and a remainder, the string is exactly the encoding of that header followed by the remainder; hence no two headers share an encoding and no header's encoding is a proper prefix of another's.", "quantifier": "every byte string of every length, every pair of headers", "why_tests_cant": "quantifies over all byte strings and all pairs of headers", "anchors": ["source/postcard-rpc/src/header.rs: VarHeader::take_from_slice", "source/postcard-rpc/src/header.rs: VarHeader::write_to_vec"]}
{"id": "C03", "title": "Header decoder accepts exactly the documented set and never panics", "statement": "For any received bytes the header decoder returns without panicking, and succeeds exactly when the first byte exists, its version nibble is zero, its sequence-width bits are not 11, and at least the announced number of key and sequence bytes follow.", "quantifier": "every byte string of every length", "why_tests_cant": "a hostile peer can send anything; tests sample", "anchors": ["source/postcard-rpc/src/header.rs: VarHeader::take_from_slice"]}
{"id": "C04", "title": "Header wire layout", "statement": "An encoded header is one discriminant byte (key length exponent in bits 7-6, sequence width exponent in bits 5-4, zero version), then the 1/2/4/8 key bytes in order, then the sequence number little-endian in 1/2/4 bytes; total length between 3 and 13 bytes.", "quantifier": "every header", "why_tests_cant": "interoperability with independent peers needs the layout for all values", "anchors": ["source/postcard-rpc/src/header.rs: VarHeader::write_to_vec", "source/postcard-rpc/src/header.rs: module docs"]}
{"id": "C05", "title": "Writing a header into a caller buffer", "statement": "Writing a header into a caller-supplied buffer succeeds exactly when the buffer is at least as long as the header's encoding; on success the used part equals the heap-allocated encoding and every byte after it is untouched; it never panics for any buffer.", "quantifier": "every header, every buffer length and contents", "why_tests_cant": "all buffer lengths and contents times all headers", "anchors": ["source/postcard-rpc/src/header.rs: VarHeader::write_to_slice"]}
{"id": "C06", "title": "Key shrinking laws", "statement": "Shrinking a key to a requested length yields a key of the smaller of the two lengths, never longer; shrinking in several steps gives the same key as shrinking once to the smallest step; each short form is the documented XOR fold of the long key, and the fallible conversions agree with shrinking and fail exactly when the key is shorter than requested.", "quantifier": "every key of every length and every sequence of requested lengths", "why_tests_cant": "all 2^64 keys and all shrink paths", "anchors": ["source/postcard-rpc/src/header.rs: VarKey::shrink_to", "source/postcard-rpc/src/lib.rs: Key1::from_key2", "source/postcard-rpc/src/lib.rs: Key1::from_key4", "source/postcard-rpc/src/lib.rs: Key1::from_key8", "source/postcard-rpc/src/lib.rs: Key2::from_key4", "source/postcard-rpc/src/lib.rs: Key2::from_key8", "source/postcard-rpc/src/lib.rs: Key4::from_key8", "source/postcard-rpc/src/lib.rs: try_from_varkey"]}
{"id": "C07", "title": "Key comparison", "statement": "Two keys compare equal exactly when their byte strings agree after both are shrunk to the shorter of their lengths; comparison is reflexive, symmetric and preserved by shrinking. It is not transitive in general (a short key can equal two different long keys), and is transitive whenever the middle key is no shorter than one of the outer two.", "quantifier": "every pair and triple of keys of any lengths", "why_tests_cant": "all pairs/triples of keys", "anchors": ["source/postcard-rpc/src/header.rs: impl PartialEq for VarKey"]}
{"id": "C08", "title": "Sequence number comparison and resizing", "statement": "Sequence numbers compare equal exactly when their numeric values agree, whatever their widths; resizing yields exactly the requested width, widening preserves the value and narrowing keeps the low-order bits.", "quantifier": "every sequence number of every width, every requested width", "why_tests_cant": "all values; also the doc comment on the type claims the opposite for widths", "anchors": ["source/postcard-rpc/src/header.rs: impl PartialEq for VarSeq", "source/postcard-rpc/src/header.rs: VarSeq::resize"]}
{"id": "C09", "title": "Key-length calculator is correct and minimal", "statement": "The key-length calculator returns the least of 1, 2, 4, 8 at which all keys in all given lists, taken together, have pairwise different short forms; it panics exactly when some full key occurs twice. Distinctness at one length implies distinctness at every longer one.", "quantifier": "every finite list of finite lists of keys", "why_tests_cant": "unbounded lists; the four-fold nested index loop has boundary cases (same list vs later lists) that samples miss", "anchors": ["source/postcard-rpc/src/server/mod.rs: min_key_needed", "source/postcard-rpc/src/server/mod.rs: keycheck!"]}
{"id": "C10", "title": "Dispatcher key length is collision-free in both directions", "statement": "The key length chosen for a dispatcher makes all incoming keys (requests and incoming topics) pairwise distinct and all outgoing keys (responses and outgoing topics) pairwise distinct, and compilation is refused when a handler is absent from the declared list.", "quantifier": "every declared set of endpoints, incoming and outgoing topics and handler tables", "why_tests_cant": "all possible interface definitions", "anchors": ["source/postcard-rpc/src/server/dispatch_macro.rs: sizer::NEEDED_SZ", "source/postcard-rpc/src/server/dispatch_macro.rs: a_is_subset_of_b"]}
{"id": "C11", "title": "Request routing", "statement": "A frame whose key is an endpoint's request key, sent at any length from the dispatcher's key length up to 8 bytes, runs that endpoint's handler exactly once, on the decoded body, and runs no other handler.", "quantifier": "every interface definition accepted by the dispatcher macro, every endpoint in it, every key length, sequence number and body", "why_tests_cant": "quantifies over all interface definitions and frames", "anchors": ["source/postcard-rpc/src/server/dispatch_macro.rs: @matcher handle"]}
{"id": "C12", "title": "Keys that are too short are refused", "statement": "A frame whose key is shorter than the dispatcher's key length gets exactly one KeyTooSmall error carrying the request's sequence number, runs no handler and leaves the application context unchanged; a frame with a long enough key never gets KeyTooSmall.", "quantifier": "every dispatcher, frame and application state", "why_tests_cant": "all frames and states", "anchors": ["source/postcard-rpc/src/server/dispatch_macro.rs: @matcher handle", "source/postcard-rpc/src/lib.rs: TryFrom<&VarKey>"]}
{"id": "C13", "title": "Unknown keys are refused", "statement": "A frame whose key does not belong to any handled endpoint or topic gets exactly one UnknownKey error with its sequence number and runs no handler.", "quantifier": "every dispatcher and every frame", "why_tests_cant": "all keys; collisions after shortening are sparse so random tests miss them", "anchors": ["source/postcard-rpc/src/server/dispatch_macro.rs: @matcher handle"]}
{"id": "C14", "title": "One request, one answer", "statement": "Handling a request for a blocking or async endpoint over a transport that accepts frames emits exactly one frame: the handler's reply under the endpoint's response key, echoing the request's sequence number with the same width, with the key shrunk to the server's key length. A topic message emits nothing on its own.", "quantifier": "every dispatcher, handler, request frame and application state", "why_tests_cant": "all handlers, states and frames", "anchors": ["source/postcard-rpc/src/server/dispatch_macro.rs: @ep_arm", "source/postcard-rpc/src/server/mod.rs: Sender::reply"]}
{"id": "C15", "title": "Undecodable bodies", "statement": "If a request body does not decode as the endpoint's request type, exactly one DeserFailed error with the request's sequence number is sent, the handler does not run and the context is unchanged; an undecodable topic message has no effect at all.", "quantifier": "every dispatcher, every body rejected by the deserializer, every application state", "why_tests_cant": "all malformed bodies", "anchors": ["source/postcard-rpc/src/server/dispatch_macro.rs: @matcher handle"]}
{"id": "C16", "title": "Spawned handlers", "statement": "For a spawn endpoint the dispatcher either hands exactly one task (with the decoded request, header and context snapshot) to the spawner and sends nothing itself, or, when the spawner refuses, sends exactly one FailedToSpawn error with the request's sequence number.", "quantifier": "every dispatcher, request, application state and spawner outcome", "why_tests_cant": "all schedules of spawner success or failure", "anchors": ["source/postcard-rpc/src/server/dispatch_macro.rs: @ep_arm spawn", "source/postcard-rpc/src/server/dispatch_macro.rs: @tp_arm spawn"]}
{"id": "C17", "title": "Server loop processes each frame once, in order, and stops only when documented", "statement": "The server loop dispatches every received well-formed frame exactly once in arrival order, ignores malformed frames and non-fatal receive errors without any effect, and returns exactly at the first closed-connection receive error or the first dispatch that returned a closed-connection or timeout send error.", "quantifier": "every sequence of receive results and dispatch results, of any length", "why_tests_cant": "all histories of frames and errors", "anchors": ["source/postcard-rpc/src/server/mod.rs: Server::run"]}
{"id": "C18", "title": "A failed reply is reported to the run loop", "statement": "If sending a blocking/async endpoint's reply fails with a fatal kind (closed or timeout), the server loop terminates with that error.", "quantifier": "every endpoint, handler and outcome of the reply and of the follow-up error frame", "why_tests_cant": "needs every combination of send outcomes", "anchors": ["source/postcard-rpc/src/server/dispatch_macro.rs: @ep_arm blocking", "source/postcard-rpc/src/server/dispatch_macro.rs: @ep_arm async", "source/postcard-rpc/src/server/mod.rs: Server::run"]}
{"id": "C19", "title": "Schema dump contents and accounting", "statement": "Answering a schema request publishes one data message per type, endpoint, outgoing topic and incoming topic of the device map, in that order, numbered consecutively from 0, and then replies to the requester with the four list lengths and the number of publications that failed.", "quantifier": "every device map with at most 65535 entries, every pattern of send failures", "why_tests_cant": "all device maps and failure patterns", "anchors": ["source/postcard-rpc/src/server/mod.rs: Sender::send_all_schemas"]}
{"id": "C20", "title": "Schema report is exact or refused", "statement": "When the host asks a device for its schema, it returns a report listing exactly the device's endpoints and topics with their paths, keys and types, or an error: no lost, extra or unresolvable endpoint/topic entry goes unnoticed.", "quantifier": "every device map, every loss pattern of the published data, every iteration order of the type set", "why_tests_cant": "all loss patterns and set iteration orders", "anchors": ["source/postcard-rpc/src/host_client/mod.rs: HostClient::get_schema_report", "source/postcard-rpc/src/host_client/mod.rs: SchemaReport::add_endpoint", "source/postcard-rpc/src/server/mod.rs: Sender::send_all_schemas"]}
{"id": "C21", "title": "Unique type list has no duplicates and no primitives", "statement": "The compile-time list of unique types of a type never contains two equal schemas nor a primitive one, and every member occurs within the type's schema.", "quantifier": "every finite schema tree", "why_tests_cant": "schemas are unbounded trees", "anchors": ["source/postcard-rpc/src/uniques.rs: type_chewer_nty", "source/postcard-rpc/src/uniques.rs: type_chewer_dmt", "source/postcard-rpc/src/uniques.rs: unique_types!"]}
{"id": "C22", "title": "Unique type list is complete", "statement": "Every non-primitive schema occurring anywhere inside a type is present in its unique type list.", "quantifier": "every finite schema tree", "why_tests_cant": "schemas are unbounded trees; the failing shape (a named struct nested under an enum newtype variant) is easy to miss in samples", "anchors": ["source/postcard-rpc/src/uniques.rs: type_chewer_dmt", "source/postcard-rpc/src/uniques.rs: unique_types!"]}
{"id": "C23", "title": "Unique type computation never fails", "statement": "Computing the unique type list never runs out of its pre-computed capacity, never indexes out of bounds and never hits a panic, for any schema.", "quantifier": "every finite schema tree", "why_tests_cant": "schemas are unbounded trees; a failure would be a compile error for a user's type", "anchors": ["source/postcard-rpc/src/uniques.rs: unique_types_nty_upper", "source/postcard-rpc/src/uniques.rs: unique_types_dmt_upper", "source/postcard-rpc/src/uniques.rs: type_chewer_nty", "source/postcard-rpc/src/uniques.rs: cruncher"]}
{"id": "C24", "title": "Const schema comparison decides equality", "statement": "The compile-time schema comparison returns true exactly when the two schemas are structurally identical (names, shapes, order and nesting).", "quantifier": "every pair of finite schema trees", "why_tests_cant": "all pairs of unbounded trees", "anchors": ["source/postcard-rpc/src/uniques.rs: nty_eq", "source/postcard-rpc/src/uniques.rs: dmt_eq", "source/postcard-rpc/src/uniques.rs: var_eq", "source/postcard-rpc/src/uniques.rs: dmv_eq", "source/postcard-rpc/src/uniques.rs: str_eq"]}
{"id": "C25", "title": "Merging type lists and endpoint lists", "statement": "Merging several unique-type lists yields each member of any list exactly once in order of first appearance; concatenating endpoint/topic lists yields exactly the lists one after another with no loss or padding, without panicking.", "quantifier": "every finite family of finite lists", "why_tests_cant": "unbounded lists and list families", "anchors": ["source/postcard-rpc/src/uniques.rs: merge_nty_lists", "source/postcard-rpc/src/uniques.rs: combine_with_copy", "source/postcard-rpc/src/uniques.rs: total_len", "source/postcard-rpc/src/macros.rs: concat_arrays!"]}
{"id": "C26", "title": "COBS reassembly is independent of chunking", "statement": "Feeding a stream of COBS frames that each fit the receive buffer to the accumulator produces exactly the frames sent, in order, no matter how the byte stream is cut into reads.", "quantifier": "every sequence of payloads whose encodings fit, every way of splitting the byte stream", "why_tests_cant": "exponentially many splits", "anchors": ["source/postcard-rpc/src/accumulator.rs: CobsAccumulator::feed_ref"]}
{"id": "C27", "title": "COBS resynchronisation", "statement": "Whatever bytes were received before, after the next zero byte every subsequent fitting frame is delivered intact; noise can damage at most the frame it overlaps and the one delimiter following it.", "quantifier": "every accumulator state, every noise prefix, every following frame sequence", "why_tests_cant": "all noise and internal states", "anchors": ["source/postcard-rpc/src/accumulator.rs: CobsAccumulator::feed_ref"]}
{"id": "C28", "title": "COBS accumulator safety and progress", "statement": "Feeding never panics or writes outside the buffer, always consumes at least one byte of a non-empty input or returns Consumed, so the receive loop terminates; the unconsumed remainder is a suffix of the input.", "quantifier": "every accumulator state reachable with non-zero capacity, every input", "why_tests_cant": "all states and inputs; the capacity-zero and exactly-full edges are rare", "anchors": ["source/postcard-rpc/src/accumulator.rs: CobsAccumulator::feed_ref", "source/postcard-rpc/src/accumulator.rs: CobsAccumulator::extend_unchecked", "source/postcard-rpc/src/host_client/serial.rs: SerialWireRx::recv_inner"]}
{"id": "C29", "title": "Serial link delivers every frame", "statement": "Every frame sent over the serial transport with COBS framing is delivered to the receiving side of the host client exactly once and in order.", "quantifier": "every sequence of frames, every read chunking", "why_tests_cant": "all frames and chunkings; dropped frames are the shortest ones", "anchors": ["source/postcard-rpc/src/host_client/serial.rs: SerialWireTx::send_inner", "source/postcard-rpc/src/host_client/serial.rs: SerialWireRx::recv_inner"]}
{"id": "C30", "title": "USB device transmit framing", "statement": "A frame sent by the embassy-usb transport arrives at a host that reassembles packets into transfers as exactly that frame, for every length including multiples of the packet size.", "quantifier": "every frame, every previous history of successful sends", "why_tests_cant": "all lengths and contents", "anchors": ["source/postcard-rpc/src/server/impls/embassy_usb_v0_4.rs: send_all", "source/postcard-rpc/src/server/impls/embassy_usb_v0_3.rs: send_all"]}
{"id": "C31", "title": "USB device transmit survives interruption", "statement": "If any number of earlier sends were cut short at any packet (timeout or cancellation), the next successful send still arrives at the host as exactly one intact frame; cut-off frames arrive at most as truncated prefixes in their own transfers and are never glued to another frame.", "quantifier": "every crash point inside every send, every history", "why_tests_cant": "all crash points and histories", "anchors": ["source/postcard-rpc/src/server/impls/embassy_usb_v0_4.rs: send_all", "source/postcard-rpc/src/server/impls/embassy_usb_v0_4.rs: EUsbWireTxInner.pending_frame"]}
{"id": "C32", "title": "USB device receive reassembly", "statement": "The embassy-usb receiver returns exactly the bytes of each host frame that fits the receive buffer, reports an error for each one that does not, and afterwards is aligned on the next frame.", "quantifier": "every sequence of frames of any lengths, every buffer size", "why_tests_cant": "all lengths around multiples of 64 and around the buffer size", "anchors": ["source/postcard-rpc/src/server/impls/embassy_usb_v0_4.rs: EUsbWireRx::receive", "source/postcard-rpc/src/server/impls/embassy_usb_v0_3.rs: EUsbWireRx::receive"]}
{"id": "C33", "title": "USB send timeout budget", "statement": "The transmit timeout is always at least the per-frame allowance times the number of packets needed for the header and body, the allowance is clamped to 1..60000 ms, and computing it never overflows for any frame that fits the buffer.", "quantifier": "every configured allowance and frame length", "why_tests_cant": "all values", "anchors": ["source/postcard-rpc/src/server/impls/embassy_usb_v0_4.rs: set_timeout_ms_per_frame", "source/postcard-rpc/src/server/impls/embassy_usb_v0_4.rs: send_all"]}
{"id": "C34", "title": "Formatted device log message", "statement": "A formatted log message that fits the transmit buffer is sent as a frame whose body decodes to exactly the formatted text; one that does not fit is sent truncated; no message makes the device panic.", "quantifier": "every transmit buffer size, every formatted text and every way the formatter splits it into pieces", "why_tests_cant": "all buffer sizes around the variable-length-integer boundaries and all texts", "anchors": ["source/postcard-rpc/src/server/impls/embassy_usb_v0_4.rs: send_log_fmt", "source/postcard-rpc/src/server/impls/embassy_usb_v0_4.rs: actual_varint_max_len", "source/postcard-rpc/src/server/impls/embassy_usb_v0_4.rs: SliceWriter::write_str", "source/postcard-rpc/src/server/impls/embassy_usb_v0_4.rs: varint_usize"]}
{"id": "C35", "title": "Client sequence numbers are unique while in flight", "statement": "Any two calls on a client (and all its clones) separated by fewer than 2^32 - 1 other calls use different sequence numbers, under every interleaving.", "quantifier": "every interleaving of calls from any number of tasks", "why_tests_cant": "all schedules and counter wrap-around", "anchors": ["source/postcard-rpc/src/host_client/mod.rs: HostClient::send_resp", "source/postcard-rpc/src/host_client/mod.rs: HostClient::seq_no"]}
{"id": "C36", "title": "Response correlation", "statement": "A completed call was completed by a frame received after the call registered, carrying the call's sequence number and either its response key or the error key (up to key shortening); each received frame completes at most one call, and each call completes at most once.", "quantifier": "every schedule of concurrent calls, cancellations, subscriptions and incoming frames", "why_tests_cant": "all schedules", "anchors": ["source/postcard-rpc/src/host_client/mod.rs: HostClient::send_resp_raw", "source/postcard-rpc/src/host_client/mod.rs: HostContext::process_did_wake", "source/postcard-rpc/src/host_client/util.rs: in_worker_inner"]}
{"id": "C37", "title": "No lost response", "statement": "A response frame that arrives any time after its request was handed to the transport finds its caller waiting: unless a subscription claims its key, the caller was cancelled or the client stopped, the caller receives it.", "quantifier": "every schedule of call registration, transmission, reply arrival and cancellation", "why_tests_cant": "all schedules; the race is between transmission and registration", "anchors": ["source/postcard-rpc/src/host_client/mod.rs: HostClient::send_resp_raw"]}
{"id": "C38", "title": "Closing is permanent and releases everyone", "statement": "Once closed (explicitly or by a transport failure) a client stays closed; every pending call can only finish with Closed or with a response received before the close, every later call, publish and subscription is refused or can never report success based on later traffic, and every subscription ends after draining what was queued.", "quantifier": "every schedule and every close point", "why_tests_cant": "all crash points", "anchors": ["source/postcard-rpc/src/host_client/util.rs: Stopper", "source/postcard-rpc/src/host_client/util.rs: in_worker", "source/postcard-rpc/src/host_client/util.rs: out_worker", "source/postcard-rpc/src/host_client/mod.rs: HostClient::close"]}
{"id": "C39", "title": "Exclusive subscriptions are exclusive", "statement": "At any time at most one exclusive subscription per topic receives messages: a non-replacing subscribe fails with AlreadySubscribed exactly when a live one exists, and a replacing subscribe ends the previous one.", "quantifier": "every history of subscribe, drop, receive and close operations", "why_tests_cant": "all histories", "anchors": ["source/postcard-rpc/src/host_client/mod.rs: HostClient::subscribe", "source/postcard-rpc/src/host_client/mod.rs: HostClient::subscribe_exclusive"]}
{"id": "C40", "title": "Subscription delivery order", "statement": "The messages a subscriber receives are, in order and without duplication, a subsequence of the topic frames that arrived while it was subscribed; when its queue never filled up it is all of them.", "quantifier": "every history of arriving frames, receives, subscriptions and queue depths", "why_tests_cant": "all histories", "anchors": ["source/postcard-rpc/src/host_client/util.rs: in_worker_inner", "source/postcard-rpc/src/host_client/mod.rs: Subscription::recv"]}
{"id": "C41", "title": "No subscription outlives the worker", "statement": "After the receive worker has stopped, no subscription remains registered and every later attempt to subscribe is refused, including attempts racing with the shutdown.", "quantifier": "every interleaving of subscribe calls with worker shutdown", "why_tests_cant": "all schedules", "anchors": ["source/postcard-rpc/src/host_client/util.rs: in_worker", "source/postcard-rpc/src/host_client/mod.rs: HostClient::subscribe_multi_inner", "source/postcard-rpc/src/host_client/mod.rs: HostClient::subscribe", "source/postcard-rpc/src/host_client/mod.rs: HostClient::subscribe_exclusive"]}
{"id": "C42", "title": "Client adapts key length", "statement": "The key on every request or publication sent by the client is the message's full key shrunk to the length learned from the most recent response (8 bytes initially), so a server with collision-free keys of that length routes it to the intended handler.", "quantifier": "every history of responses and requests", "why_tests_cant": "all histories", "anchors": ["source/postcard-rpc/src/host_client/mod.rs: HostClient::send_resp_raw", "source/postcard-rpc/src/host_client/mod.rs: HostClient::publish_raw"]}
{"id": "C43", "title": "Configured sequence width is used", "statement": "Frames sent for calls by a client use the sequence-number width it was configured with.", "quantifier": "every configuration and call", "why_tests_cant": "needs every configuration; no test inspects the width on the wire", "anchors": ["source/postcard-rpc/src/host_client/mod.rs: HostClient::send_resp", "source/postcard-rpc/src/host_client/mod.rs: HostClient.seq_kind"]}
{"id": "C44", "title": "Errors are distinguishable from replies", "statement": "At the dispatcher's key length, an error frame is never taken for a successful reply of any endpoint, nor the other way round.", "quantifier": "every interface definition accepted by the dispatcher macro", "why_tests_cant": "collisions are sparse among definitions", "anchors": ["source/postcard-rpc/src/server/dispatch_macro.rs: sizer::NEEDED_SZ_OUT", "source/postcard-rpc/src/standard_icd.rs: ERROR_KEY", "source/postcard-rpc/src/host_client/mod.rs: HostClient::send_resp_raw"]}
{"id": "C45", "title": "End-to-end call correctness", "statement": "With any number of concurrent calls over an order-preserving lossless link to a server whose handlers may finish in any order, a call that returns a reply returns the reply its own request's handler produced, never another's.", "quantifier": "every interleaving of callers, transport, server dispatch and spawned handlers; any number of calls below sequence wrap-around", "why_tests_cant": "all schedules", "anchors": ["source/postcard-rpc/src/host_client/mod.rs: HostClient::send_resp", "source/postcard-rpc/src/server/mod.rs: Server::run", "source/postcard-rpc/src/server/dispatch_macro.rs: define_dispatch!"]}
{"id": "C46", "title": "Host USB receive robustness", "statement": "The host USB receiver keeps between its low and full number of transfers queued, tolerates any pattern of stalls with fewer than the limit in a row, gives up at the limit or at the first fatal error, and returns completed transfers in order without loss.", "quantifier": "every sequence of transfer completions", "why_tests_cant": "all sequences of errors", "anchors": ["source/postcard-rpc/src/host_client/raw_nusb.rs: NusbWireRx::recv_inner"]}
{"id": "C47", "title": "Host USB transmit termination", "statement": "A frame sent by the host over USB is always terminated by a short or zero-length packet, exactly one terminator per frame when the packet size is known, so the device receiver sees its exact end.", "quantifier": "every frame length and every packet size", "why_tests_cant": "all lengths and packet sizes", "anchors": ["source/postcard-rpc/src/host_client/raw_nusb.rs: NusbWireTx::send_inner"]}
{"id": "C48", "title": "Client transmits in submission order", "statement": "Frames leave the client in exactly the order in which calls and publications placed them in the outgoing queue, each at most once and unmodified; after the first transport error nothing more is sent.", "quantifier": "every interleaving of submitters and every transport outcome", "why_tests_cant": "all schedules and error points", "anchors": ["source/postcard-rpc/src/host_client/util.rs: out_worker_inner", "source/postcard-rpc/src/host_client/mod.rs: HostClient::publish_raw", "source/postcard-rpc/src/host_client/mod.rs: RpcFrame::to_bytes"]}
{"id": "C49", "title": "USB link delivers device frames whole", "statement": "Every frame the USB server transport sends successfully is returned by the host USB receiver as exactly one message with exactly those bytes, in the order sent; sends cut short never alter other frames.", "quantifier": "every history of sends with every pattern of failures and interruptions; every frame length", "why_tests_cant": "all lengths and interruption points across two machines", "anchors": ["source/postcard-rpc/src/server/impls/embassy_usb_v0_4.rs: send_all", "source/postcard-rpc/src/host_client/raw_nusb.rs: NusbWireRx::recv_inner", "source/postcard-rpc/src/host_client/raw_nusb.rs: MAX_TRANSFER_SIZE"]}
{"id": "C50", "title": "WebUSB transmit termination", "statement": "A frame sent by the host over WebUSB is always terminated by a short or zero-length packet, so the device receiver sees its exact end.", "quantifier": "every sequence of frames and every packet size", "why_tests_cant": "all lengths and packet sizes; needs a browser", "anchors": ["source/postcard-rpc/src/host_client/webusb.rs: WebUsbWire::send"]}
{"id": "C51", "title": "Declared interfaces are complete", "statement": "The table built by endpoints! or topics! lists exactly the enabled declarations in the order written, each with the keys of its own path and types, after the standard ones unless these are omitted; the type list holds exactly the unique types of the listed declarations, each once. Building it never fails.", "quantifier": "every list of declarations, every choice of cfg switches, omit_std and use_std", "why_tests_cant": "all lists, type trees and switch combinations; the work is done at compile time by index loops over arrays", "anchors": ["source/postcard-rpc/src/macros.rs: endpoints!", "source/postcard-rpc/src/macros.rs: topics!", "source/postcard-rpc/src/macros.rs: concat_arrays!", "source/postcard-rpc/src/standard_icd.rs: STANDARD_ICD_ENDPOINTS"]}
{"id": "C52", "title": "Default interfaces route without interference", "statement": "If an application's three lists are built with the macros' default setting (standard items included) and define_dispatch! accepts it, then every declared endpoint and topic with a handler is reached by its key at every length the server accepts, ping and schema queries always reach the built-in handlers, and at the server's key length all responses and outgoing topics, standard and declared, have different keys.", "quantifier": "every interface, every key function, every key length accepted", "why_tests_cant": "all interfaces and all possible key collisions", "anchors": ["source/postcard-rpc/src/macros.rs: endpoints!", "source/postcard-rpc/src/macros.rs: topics!", "source/postcard-rpc/src/server/dispatch_macro.rs: define_dispatch!", "source/postcard-rpc/src/server/dispatch_macro.rs: sizer"]}
{"id": "C53", "title": "USB server transmitter sends whole messages or none", "statement": "Whatever was sent, refused or cut before, each message given to the USB server transmitter (typed, raw or log) is either refused with Other without touching the bus, exactly when it cannot be serialized into the transmit buffer, or its own header and body go out, never mixed with left-over buffer contents; success means the host gets exactly that frame.", "quantifier": "every history of operations, every buffer size and initial content, every outcome of every packet write", "why_tests_cant": "all histories, sizes and failure points", "anchors": ["source/postcard-rpc/src/server/impls/embassy_usb_v0_4.rs: EUsbWireTx::send", "source/postcard-rpc/src/server/impls/embassy_usb_v0_4.rs: EUsbWireTx::send_raw", "source/postcard-rpc/src/server/impls/embassy_usb_v0_4.rs: EUsbWireTx::send_log_str", "source/postcard-rpc/src/server/impls/embassy_usb_v0_4.rs: EUsbWireTx::send_log_fmt"]}
{"id": "C54", "title": "Log messages are numbered without gaps", "statement": "The sequence numbers of any two log messages the host receives differ by exactly the number of log messages the device attempted between them, modulo 65536, so lost log messages are visible as gaps.", "quantifier": "every history of operations with every pattern of refusals, cuts and failures", "why_tests_cant": "all histories and wrap-around", "anchors": ["source/postcard-rpc/src/server/impls/embassy_usb_v0_4.rs: EUsbWireTx::send_log_str", "source/postcard-rpc/src/server/impls/embassy_usb_v0_4.rs: EUsbWireTx::send_log_fmt"]}
{"id": "C55", "title": "Serial end of connection is noticed", "statement": "When the serial port ends, by a read error or by end of file, the host's receiver hands out every complete frame received before and then returns an error instead of waiting for ever.", "quantifier": "every COBS encoder, every list of frames, every cutting of the stream into reads, any number of empty reads", "why_tests_cant": "needs a port that ends at every possible point; waiting for ever cannot be observed", "anchors": ["source/postcard-rpc/src/host_client/serial.rs: SerialWireRx::recv_inner", "source/postcard-rpc/src/host_client/util.rs: in_worker_inner"]}
{"id": "C56", "title": "WebUSB delivers whole frames", "statement": "Whatever maximum transfer length the user chose, the host receives over WebUSB exactly the frames the device sent, one message each, and no error arises.", "quantifier": "every transfer length, every history of successful device sends", "why_tests_cant": "all lengths against all transfer lengths; needs a browser and a device", "anchors": ["source/postcard-rpc/src/host_client/webusb.rs: WebUsbWire::receive", "source/postcard-rpc/src/server/impls/embassy_usb_v0_4.rs: send_all"]}
{"id": "C57", "title": "WebUSB send success means delivery", "statement": "WebUsbWire::send returns Ok only if the transfer completed with status ok and all bytes written.", "quantifier": "every frame and every way the browser's transfer can end", "why_tests_cant": "failure statuses need a misbehaving device", "anchors": ["source/postcard-rpc/src/host_client/webusb.rs: WebUsbWire::send"]}
{"id": "C58", "title": "Every declared interface can be described", "statement": "For every interface declared with the endpoints! and topics! macros and served with define_dispatch!: if the device answers the schema query without a failed publication and the host collects everything published, get_schema_report returns a report that lists exactly the device's endpoints and topics, with a known type of the right key for each request, response and message.", "quantifier": "every interface table, every type schema, every key function in which the key of a primitive type depends only on the primitive", "why_tests_cant": "a test fixes one interface; the claim is over all types usable in one, including each primitive on its own", "anchors": ["source/postcard-rpc/src/host_client/mod.rs: SchemaReport::default, get_schema_report", "source/postcard-rpc/src/uniques.rs: is_prim", "source/postcard-rpc/src/macros.rs: endpoints!, topics!"]}
{"id": "C59", "title": "Channel transport is faithful", "statement": "Over the channel transport the frames received (counting those refused for their size) are exactly those of the send calls that returned Ok, in that order, each once and unchanged, with at most the channel's capacity still on the way. A call that failed, was given up, panicked or has not returned puts nothing on the channel. Each frame is the header encoding followed by the body, and receive returns it exactly if it fits the buffer. Once every sender is gone, everything accepted has been received before receive reports ChannelClosed, and that report is final.", "quantifier": "every interleaving of any number of sending tasks with the receiver, every capacity and buffer size", "why_tests_cant": "concurrency: all interleavings of suspended sends, cancellations and receives", "anchors": ["source/postcard-rpc/src/server/impls/test_channels.rs: ChannelWireTx::inner_send, send, send_raw, send_log_str, send_log_fmt", "source/postcard-rpc/src/server/impls/test_channels.rs: ChannelWireRx::receive"]}
{"id": "C60", "title": "Channel log messages arrive in order of their numbers", "statement": "Each log message sent over the channel transport carries the number of log calls started before it (modulo 2^32), and log messages are received in the order of their numbers.", "quantifier": "every interleaving of any number of logging tasks", "why_tests_cant": "the reordering needs two tasks suspended at the same time", "anchors": ["source/postcard-rpc/src/server/impls/test_channels.rs: send_log_str, send_log_fmt"]}
{"id": "C61", "title": "Stopping a channel server is immediate", "statement": "After Stopper::stop nothing more is sent or received over the channel transport: calls in progress and later ones return ChannelClosed, and Server::run ends.", "quantifier": "every interleaving, stop at any point", "why_tests_cant": "select! chooses at random among ready branches; a test sees one choice", "anchors": ["source/postcard-rpc/src/server/impls/test_channels.rs: inner_send, receive", "source/postcard-rpc/src/host_client/util.rs: Stopper", "source/postcard-rpc/src/server/mod.rs: Server::run"]}
{"id": "C62", "title": "Multi-subscription depth is honoured", "statement": "A multi-subscription made with depth d that never has more than d unread messages of its topic loses none: no receive on it reports Lagged.", "quantifier": "every run of the client, every interleaving of subscribing, receiving and arriving frames", "why_tests_cant": "needs several subscribers to one topic with different depths and a slow reader", "anchors": ["source/postcard-rpc/src/host_client/mod.rs: subscribe_multi_inner, RawMultiSubscription::recv", "source/postcard-rpc/src/host_client/util.rs: in_worker_inner"]}
{"id": "C63", "title": "Subscriptions end only for a reason", "statement": "A subscription that was not dropped reports its end only after a later subscription to the same topic replaced it (exclusive ones) or once the receive worker is ending; once the worker has ended every receive returns instead of waiting.", "quantifier": "every run of the client", "why_tests_cant": "needs topics whose short keys collide and a dropped subscription between them", "anchors": ["source/postcard-rpc/src/host_client/util.rs: in_worker_inner (retain), in_worker", "source/postcard-rpc/src/host_client/mod.rs: RawSubscription::recv, RawMultiSubscription::recv"]}
{"id": "C64", "title": "Typed subscriptions skip undecodable messages only", "statement": "A typed receive consumes raw messages up to and including the first that decodes and returns it; it returns one if any queued message decodes, reports the end or a lag only if the raw subscription does, and undecodable messages neither end the subscription nor change the others.", "quantifier": "every queue content and every decoder", "why_tests_cant": "unbounded queues, arbitrary decoders", "anchors": ["source/postcard-rpc/src/host_client/mod.rs: Subscription::recv, MultiSubscription::recv"]}
{"id": "C65", "title": "A dropped client sends what it accepted", "statement": "If a client is ended only by dropping its handles (no close, no transport error), its workers stop only after every frame its outgoing queue accepted was handed to the transport with success; and after the last handle is gone the workers do get to their end by being polled, and every subscription sees its end.", "quantifier": "every run of the client without close and transport errors", "why_tests_cant": "timing between dropping the handle and the transmit worker", "anchors": ["source/postcard-rpc/src/host_client/util.rs: out_worker, out_worker_inner, in_worker", "source/postcard-rpc/src/host_client/mod.rs: publish, send_resp_raw"]}
{"id": "C66", "title": "Nothing gets stuck inside a client", "statement": "Left to itself, a client finishes its work: however its workers and calls are scheduled the number of steps they take before coming to rest is bounded by what is in flight. At rest, an open client has handed every accepted frame to the transport, delivered every received frame, finished every publication and has only calls waiting for the other side; a closed client has ended both workers, every call and every publication.", "quantifier": "every reachable client, every schedule of its own steps, every result of the transport's sends", "why_tests_cant": "a deadlock or livelock between workers, calls and queues shows under rare schedules only; tests see the ones that terminated", "anchors": ["source/postcard-rpc/src/host_client/util.rs: out_worker, out_worker_inner, in_worker, in_worker_inner", "source/postcard-rpc/src/host_client/mod.rs: send_resp_raw, publish_raw, HostContext"]}
{"id": "C67", "title": "Every call is answered", "statement": "For a client and a server of the same application, joined by links that lose nothing: as long as the client stays open, the server's sends succeed, requests fit its receive buffer, every spawned endpoint handler replies once, and nobody subscribes to anything but declared outgoing topics, every call whose future is kept returns a reply or an error frame. No call waits for ever, however callers, workers, dispatcher and handlers interleave, and the client and server come to rest after finitely many steps.", "quantifier": "every application accepted by define_dispatch! whose error key differs from its response and topic keys at the key length in use, every run with fewer than 2^32 calls, every schedule of the steps the system takes by itself", "why_tests_cant": "a lost wake-up or an answer handed to the wrong place shows as a call that never returns, under one of unboundedly many interleavings", "anchors": ["source/postcard-rpc/src/host_client/mod.rs: send_resp, send_resp_raw", "source/postcard-rpc/src/host_client/util.rs: out_worker, in_worker, in_worker_inner", "source/postcard-rpc/src/server/dispatch_macro.rs: define_dispatch handle", "source/postcard-rpc/src/server/mod.rs: Server::run, Sender"]}
{"id": "C68", "title": "A failed USB send says why", "statement": "A send on the USB device succeeds exactly if every packet it needs is written; it reports a closed connection exactly if the first write that is not completed failed at the endpoint, a timeout exactly if the time ran out during it, and never anything else.", "quantifier": "every frame, every state left by earlier sends, every outcome of every packet write", "why_tests_cant": "the server stops on both errors, so a wrong kind is not seen until somebody decides by it; all combinations of lengths and failing writes", "anchors": ["source/postcard-rpc/src/server/impls/embassy_usb_v0_4.rs: send_all"]}
{"id": "C69", "title": "Handlers share one context", "statement": "Every received frame changes the handlers' context exactly as its handler does (a spawned handler as spawn_ctxt does), and a frame without handler, with an undecodable body, for ping or for the schema report does not change it; each handler finds the context as the one before it left it.", "quantifier": "every dispatcher, every sequence of receive outcomes, all handler functions, all outcomes of sends made by handlers", "why_tests_cant": "the context is arbitrary user state; a lost or repeated update depends on the mix of handler flavours", "anchors": ["source/postcard-rpc/src/server/dispatch_macro.rs: @ep_arm, @tp_arm, @matcher", "source/postcard-rpc/src/server/mod.rs: Server::run"]}
{"id": "C70", "title": "The outgoing queue of a client is bounded", "statement": "At most outgoing_depth frames are accepted and not yet handed to the transport; while the transmit worker runs, a submission can go on exactly when there are fewer, so every frame the worker takes lets one more submission in.", "quantifier": "every reachable client, every interleaving of calls, publications and worker", "why_tests_cant": "the bound must hold under every interleaving of concurrent submitters", "anchors": ["source/postcard-rpc/src/host_client/mod.rs: HostClient::new_manual, send_resp_raw, publish_raw", "source/postcard-rpc/src/host_client/util.rs: out_worker_inner"]}
{"id": "C71", "title": "Refusals have a cause", "statement": "A client is closed only after an explicit close, a failed send or receive of its transport, or after its last handle was dropped; received bytes that are no frame change nothing. A call ends with Closed and a publication fails only on a closed client. A call ends with BadResponse only while something waits for answers that cannot be told from its own (same sequence number, keys agreeing at the shorter key length); calls made through send_resp only, fewer than 2^32 of them, are never refused unless their own response key cannot be told from the error key.", "quantifier": "every run of the client, every received byte string, every interleaving of calls, publications, subscriptions and workers", "why_tests_cant": "a spurious close or refusal shows only under some interleaving or for some malformed frame", "anchors": ["source/postcard-rpc/src/host_client/util.rs: out_worker, in_worker, in_worker_inner", "source/postcard-rpc/src/host_client/mod.rs: HostClient::send_resp, send_resp_raw, publish_raw"]}
{"id": "C72", "title": "A server over USB answers the host", "statement": "For frames shorter than 1024 bytes: whatever the history of operations on the device's transmitter (the server's sends, log messages and raw frames of other code) and wherever packet writes fail or time out, the host's receiver returns, in order, at most one non-empty message per operation, a beginning of its frame, and the whole frame if the operation succeeded; every message that decodes (with a decoder that rejects proper beginnings) is a frame that was handed to the transmitter whole. The outcomes the server acts on are the transmitter's. If nothing fails and every answer fits, the host gets exactly the answers to those of its requests that are shorter than the receive buffer, in order, each with its request's sequence number; the server goes on waiting for requests and returns, with a closed connection, when the endpoint is disabled.", "quantifier": "every dispatcher, handlers and context, every list of requests, every interleaving with other users of the transmitter, every outcome of every packet write", "why_tests_cant": "the behaviour is that of five components together; cut-off frames that happen to decode would need one particular cut", "anchors": ["source/postcard-rpc/src/server/impls/embassy_usb_v0_4.rs: EUsbWireTx, EUsbWireRx::receive", "source/postcard-rpc/src/server/mod.rs: Server::run", "source/postcard-rpc/src/server/dispatch_macro.rs: @matcher", "source/postcard-rpc/src/host_client/raw_nusb.rs: NusbWireTx::send, NusbWireRx::receive"]}
{"id": "C73", "title": "USB sends end in time, and a prompt host is enough", "statement": "Every send of the USB server ends within the allowance in force when it began (the last value given to set_timeout_ms_per_frame, clamped to 1..=60000, 2 ms if none was given) times the number of data packets of its frame. It succeeds at the moment its last packet is taken, reports a closed connection at the moment a packet fails, and reports a timeout only if neither happens within that time. A send to a host that takes every packet within the allowance succeeds.", "quantifier": "every history of settings and sends, every timing of every packet write, every frame length whose limit fits in usize", "why_tests_cant": "the time limit depends on the length of the frame and on how the previous frame ended; hitting it exactly takes control over the bus", "anchors": ["source/postcard-rpc/src/server/impls/embassy_usb_v0_4.rs: send_all", "source/postcard-rpc/src/server/impls/embassy_usb_v0_4.rs: EUsbWireTx::set_timeout_ms_per_frame"]}
{"id": "C74", "title": "Interrupted replies never pass for answers", "statement": "Over a link on which a send of the server that fails may leave any beginning of its frame behind, received as a message of its own (as over USB): a typed call that returns Ok returns what its decoder makes of the whole reply its own request's handler gave, provided the decoder rejects proper beginnings of that reply's encoding; a call that received only a beginning of its reply returns a decoding error; the same for wire errors. A reply cut within its header is ignored.", "quantifier": "every application accepted by define_dispatch! whose error key differs from its response keys (for errors: also from its topic keys) at the key length in use, every run with fewer than 2^32 calls, in every session of the server (in later ones a reply may also be that of a task of an earlier session, whole likewise), every choice of failing sends and of how much of each frame gets out", "why_tests_cant": "needs a send interrupted at a chosen byte while other calls, tasks and publications are under way", "anchors": ["source/postcard-rpc/src/host_client/mod.rs: HostClient::send_resp, send_resp_raw", "source/postcard-rpc/src/host_client/util.rs: in_worker_inner", "source/postcard-rpc/src/header.rs: VarHeader::take_from_slice", "source/postcard-rpc/src/server/impls/embassy_usb_v0_4.rs: send_all"]}
{"id": "C75", "title": "The key length a server is given", "statement": "Server::new takes the length of the keys its frames carry. With any length that is at least D::min_key_len() the frames the server sends are told apart by their keys, every message the client sends has a key long enough for the dispatcher whatever lengths it has adapted to, and no call is refused as KeyTooSmall. With a smaller length (at which the outgoing keys still differ), once any call has returned, no call begun later returns a reply: each that returns gets an error, which is KeyTooSmall if it is for its own request.", "quantifier": "every application accepted by define_dispatch!, every key length, every run of client and server in every session of a server (for the last part with fewer than 2^32 calls, and in sessions after the first if no handlers are spawned); for what calls return, the error key differs from the response and topic keys at the server's length", "why_tests_cant": "needs a server made with a length other than the one every example passes, and for the last part two calls one after the other in all interleavings", "anchors": ["source/postcard-rpc/src/server/mod.rs: Server::new, Sender::reply, Sender::error", "source/postcard-rpc/src/server/dispatch_macro.rs: define_dispatch! (sizer, min_key_len, handle)", "source/postcard-rpc/src/host_client/mod.rs: HostClient::send_resp_raw", "source/postcard-rpc/src/host_client/util.rs: out_worker"]}
{"id": "C76", "title": "Client and server over bounded channels", "statement": "A client made by new_from_channels and a server made by new_server over two tokio channels of any capacities (at least 1): neither channel ever holds more than its capacity, calls return their own handlers' replies, and client and server never wait for each other in a circle: as long as the client stays open, every spawned endpoint handler replies once and nobody subscribes to anything but declared outgoing topics, client and server come to rest after finitely many steps of their own, with every call returned or given up by its caller, even if both channels and the client's outgoing queue were full on the way.", "quantifier": "every application as in C67, every capacity of either channel, every run with fewer than 2^32 calls, every schedule", "why_tests_cant": "a deadlock through two full channels shows only under load, with particular capacities and interleavings", "anchors": ["source/postcard-rpc/src/host_client/test_channels.rs: new_from_channels, ChannelTx::send, ChannelRx::receive", "source/postcard-rpc/src/server/impls/test_channels.rs: ChannelWireTx::inner_send, ChannelWireRx::receive, new_server", "source/postcard-rpc/src/host_client/util.rs: out_worker_inner, in_worker_inner"]}
{"id": "C77", "title": "A new client of a running server", "statement": "When a connection ends and Server::run is called again for a new client, each call of the new client that returns a reply returns the reply the handler of its endpoint gave to this call's own request, whatever earlier clients asked for; errors are likewise about messages of this client. The new client's calls are all answered, and the server goes on with the application context it had.", "quantifier": "every application as in C45 whose error key differs from the response keys, any number of earlier sessions with any calls, fewer than 2^32 calls in each session, every schedule", "why_tests_cant": "a task of a dead session replying just when the new client has a call of the same number open is a race no test provokes", "anchors": ["source/postcard-rpc/src/server/mod.rs: Server::run, Sender::reply", "source/postcard-rpc/src/server/dispatch_macro.rs: @ep_arm spawn", "source/postcard-rpc/src/host_client/mod.rs: HostClient::new_manual_priv, send_resp", "example/firmware/src/bin/comms-02.rs: main"]}
{"id": "C78", "title": "A new host process on a running USB device", "statement": "When a host process ends at any moment and another opens the device, which stayed connected throughout, every frame the new one sends reaches the server as a message of its own, and every message the new one receives is a frame the device sent as a whole.", "quantifier": "every list of frames of both processes, every number of packets that got through before the first ended, every receive buffer size that is a multiple of 64, every device history of frames shorter than 1024 bytes", "why_tests_cant": "a process dying between the two transfers of a frame, or with half a frame taken, is a moment no test hits on purpose", "anchors": ["source/postcard-rpc/src/host_client/raw_nusb.rs: NusbWireTx::send, NusbWireRx::receive", "source/postcard-rpc/src/server/impls/embassy_usb_v0_4.rs: EUsbWireRx::receive, send_all"]}
{"id": "C79", "title": "Connecting over USB uses what was asked for", "statement": "A client made by one of the USB constructors talks to the first device the caller's predicate accepts, through the first interface accepted, over bulk endpoints of its active setting in the right directions, and knows the packet size of the one it sends to; devices built with this crate's USB server are always connected to in this way.", "quantifier": "every list of devices, every set of interfaces, settings and endpoints, every predicate, Windows or not", "why_tests_cant": "composite devices with unusual descriptors are not on the bench", "anchors": ["source/postcard-rpc/src/host_client/raw_nusb.rs: try_new_raw_nusb, try_new_raw_nusb_with_interface, try_from_nusb_and_interface", "source/postcard-rpc/src/host_client/webusb.rs: WebUsbWire::new", "source/postcard-rpc/src/server/impls/embassy_usb_v0_4.rs: WireStorage::init_without_build, init_poststation"]}
{"id": "C80", "title": "A client joined to the fake server of the test utilities", "statement": "`local_setup` gives a client joined to a test server by two bounded channels. The server's receives return exactly the frames the client's queue accepted, in order; the client receives exactly what the server successfully sent, in order, and a call ends only with a frame the server sent under the call's sequence number and response or error key. After `cause_fatal_error` no message gets through in either direction and the client ends by itself: both workers stop and every call and publication returns. The client ends only for a reason: such a failure, a dropped end of a channel, or its own closing; when the server drops its sending end the client first receives everything sent; and a reply or publication is refused only once the client is closed.", "quantifier": "every bound, every interleaving of client, workers, transport and test, any number of calls, publications, replies, publications by the server and raw bytes", "why_tests_cant": "the race of a simulated failure with a message that is just arriving occurs in a fraction of the runs", "anchors": ["source/postcard-rpc/src/test_utils.rs: local_setup, LocalFakeServer, LocalRx::receive, LocalTx::send", "source/postcard-rpc/src/host_client/util.rs: new_with_wire, out_worker, in_worker"]}
{"id": "C81", "title": "The handlers of the example firmware", "statement": "Every LED shows the colour last requested for it, and a request for an LED that does not exist is refused. Pings, id and LED requests are answered at once also while accelerations are streamed. At most one acceleration stream runs at a time; a start while one is there is refused. An accepted start is answered under its own header and followed by samples numbered 0, 1, 2, … modulo 256 without gaps, none after a failed send. A stop tells whether a stream was under way; after it at most one more sample is sent and the stream ends. A stream goes on until it is stopped or fails, and samples at the range asked for.", "quantifier": "every sequence of requests and every interleaving of them with the streaming task, its sends, its sensor and its timer", "why_tests_cant": "the example is for hardware and has no tests; what goes wrong needs a stop that arrives while the reply to a start is being sent and that reply to fail", "anchors": ["example/firmware/src/bin/comms-02.rs: unique_id_handler, set_led_handler, set_all_led_handler, accelerometer_handler, accelerometer_stop_handler", "example/workbook-icd/src/lib.rs"]}
{"id": "C82", "title": "The schema report is complete whatever the device's speed", "statement": "HostClient::get_schema_report returns the complete report of a device - every endpoint and topic with its keys and types - whenever all of the device's schema messages arrive on the schema topic, its totals arrive without errors, at most 64 messages wait to be taken and the connection stays up; it does not matter how long the device takes. What it collects is always the beginning of what arrived, in order. When no more messages come it ends within 100 ms.", "quantifier": "all interleavings of the query with arriving frames, other users of the same client, the passing of time and the polls of the collecting task; all device maps and decoders", "why_tests_cant": "the outcome depends on when each message arrives relative to a 100 ms timer and on what other tasks do with the same client; the tests answer at once", "anchors": ["source/postcard-rpc/src/host_client/mod.rs: get_schema_report", "source/postcard-rpc/src/host_client/mod.rs: MultiSubscription::recv", "source/postcard-rpc/src/host_client/util.rs: Subscriptions"]}
{"id": "C83", "title": "A subscriber that does not read holds others up for a bounded time", "statement": "When an exclusive subscription's queue is full and subscriber_timeout_if_full is not zero, the client's receive worker waits with the message, and with everything that arrived after it - replies of calls, other topics - and with the subscription table locked. If the worker is run whenever it can go on, each message of a full subscription holds up what is behind it for at most the timeout and is given up only after the whole timeout; so a message is dealt with after at most the timeout times the number of messages in front of it (and itself) that had to wait, subscribing waits for at most the timeout at a time, with a timeout of zero nothing is ever held up, room in the queue or the end of the subscription ends the wait at once, and closing the client ends it at once. The bound is reached: a reply behind n such messages is delayed by n times the timeout.", "quantifier": "all timeouts, all arrival patterns, all interleavings of the workers, calls, subscriptions and the clock in which time passes only when the receive worker has nothing to do", "why_tests_cant": "delays add up over the queue of arrived messages and depend on when each arrives and on who reads when; the tests use no full subscription with a timeout", "anchors": ["source/postcard-rpc/src/host_client/util.rs: in_worker", "source/postcard-rpc/src/host_client/util.rs: in_worker_inner", "source/postcard-rpc/src/host_client/util.rs: HostClientConfig"]}
{"id": "C84", "title": "Client and server over a USB cable behave as over links that carry whole messages", "statement": "For a HostClient over the nusb transport and a Server over the embassy-usb transport joined by a cable whose packets of 64 bytes are written, carried and read one at a time, in any order with everything else and with sends of the device failing at any write: as long as the messages of the device are shorter than 1024 bytes, every run is one over links that carry whole messages (of which a failed send leaves a beginning), so a typed call that returns Ok returned the decoded reply of its own request's handler, if its decoder rejects cut replies. If no send fails and requests are shorter than the server's receive buffer (of a whole number of packets), client, server and the packets on the cable never block each other: left to themselves they come, after finitely many steps whichever they take, to a state with nothing on the cable in which every call is given up or answered.", "quantifier": "all applications, configurations, receive buffers of whole packets, interleavings of the client's workers, calls, the bus, the server's loop, spawned handlers and each packet write and read, and all outcomes of writes; what a typed call returns also in later sessions, for devices idle between them", "why_tests_cant": "the claim is over all interleavings of packet-level steps of both ends; the repository has no test of its USB transports at all", "anchors": ["source/postcard-rpc/src/host_client/raw_nusb.rs: NusbWireTx::send_inner", "source/postcard-rpc/src/host_client/raw_nusb.rs: NusbWireRx::recv_inner", "source/postcard-rpc/src/server/impls/embassy_usb_v0_4.rs: EUsbWireTx::send_all", "source/postcard-rpc/src/server/impls/embassy_usb_v0_4.rs: EUsbWireRx::receive", "source/postcard-rpc/src/server/mod.rs: Server::run"]}
{"id": "C85", "title": "The standard messages have fixed bytes and the other side understands them", "statement": "The bytes of a WireError, of SchemaTotals, of the number of a ping and of every schema item (type, endpoint, topic) are fixed by their position in the declarations of the standard ICD, the same whether the device is built with the standard library (OwnedSchemaData) or without (SchemaData); a host takes them for the very value sent, also with bytes after them, and takes no proper beginning of them for anything, whatever the sizes of usize on both sides, as long as the paths' lengths fit both; an error it does not know is a decoding error. Log texts, whose length may be padded, are read too. So, over any link: a call that ended with an error frame returns Err(Wire(e)) with the very error sent or, if part of it is missing, a decoding error; a ping with number n returns Ok(n) or a decoding error; and if the schema messages of a device arrive, get_schema_report has its answer. Errors are at most 11 bytes (1 byte if the dispatcher sent them), totals 5 to 25.", "quantifier": "all errors, totals, numbers, schema items, texts, trailing bytes, cuts, word sizes of device (any) and host (2, 4, 8 bytes), and all runs of client and server, in every session of a server (pings in later sessions: if each handler is that of a listed endpoint)", "why_tests_cant": "the claim is over every value and every cut of its encoding; the repository has no test of the bytes of the standard messages, and none that runs device types against host types", "anchors": ["source/postcard-rpc/src/standard_icd.rs: WireError", "source/postcard-rpc/src/standard_icd.rs: FrameTooLong", "source/postcard-rpc/src/standard_icd.rs: FrameTooShort", "source/postcard-rpc/src/standard_icd.rs: SchemaData", "source/postcard-rpc/src/standard_icd.rs: OwnedSchemaData", "source/postcard-rpc/src/standard_icd.rs: SchemaTotals", "source/postcard-rpc/src/lib.rs: TopicDirection", "source/postcard-rpc/src/host_client/mod.rs: HostClient::send_resp", "source/postcard-rpc/src/server/dispatch_macro.rs: define_dispatch"]}
{"id": "C86", "title": "Over USB every request is answered, with SerFailed if its reply cannot be sent", "statement": "A device has a transmit buffer of 38 to 1023 bytes, its endpoint handlers are blocking or async (not spawned), its topic handlers do not send, nobody else uses the transmitter and all USB transfers succeed. Then, whatever the host sends, it receives exactly one message per well-formed request shorter than the receive buffer (none for topics), in order, each with the sequence number of its request: the reply; SerFailed if the reply cannot be serialized or does not fit into the transmit buffer; DeserFailed, UnknownKey or KeyTooSmall as for any dispatcher. A query for the schemas is answered with those items that can be sent, in order and numbered by their position among all items, and then the totals, whose error count is the number of items left out. A reply that does not fit leaves no trace on the wire, does not stop the server and does not spoil later messages; the handler has run all the same. (With a smaller buffer a ping may remain without any answer.)", "quantifier": "all dispatchers with such handlers, all contexts, all lists of byte strings the host sends, all serializers that write errors, totals and pings in at most 11, 25 and 5 bytes, all buffer sizes in the range", "why_tests_cant": "the claim is over every list of requests and every size of every reply; it needs the failing send, the fallback in the dispatcher and the framing to be right together, and no test in the repository lets a reply fail", "anchors": ["source/postcard-rpc/src/server/dispatch_macro.rs: @ep_arm", "source/postcard-rpc/src/server/dispatch_macro.rs: @matcher", "source/postcard-rpc/src/server/mod.rs: Sender::reply", "source/postcard-rpc/src/server/mod.rs: Sender::error", "source/postcard-rpc/src/server/mod.rs: Sender::send_all_schemas", "source/postcard-rpc/src/server/mod.rs: Server::run", "source/postcard-rpc/src/server/impls/embassy_usb_v0_4.rs: EUsbWireTx::send", "source/postcard-rpc/src/host_client/raw_nusb.rs: NusbWireRx::receive_inner"]}
{"id": "C87", "title": "The LEDs of the example firmware show the colours of the last write", "statement": "After any calls of Ws2812::write, each made when the one before has returned, and 50 µs of quiet, LED i of the strip shows the i-th colour of the last call: the level of the pin, as the PIO program generates it from the words the driver computes, carries for each LED in order the 8 bits of green, red and blue, most significant first, a 1 as a pulse of 0.875 µs and a 0 as one of 0.25 µs, and nothing else; and the wait at the end of write makes the strip take the colours over before the next call.", "quantifier": "all numbers of LEDs, all lists of calls, all colours, all times between calls, all initial states of a strip whose line is quiet", "why_tests_cant": "the driver runs on a PIO state machine and cannot be tested on a host; there is no test of it in the repository, and the loss needs two calls less than 0.3 ms apart", "anchors": ["example/firmware/src/ws2812.rs: Ws2812::new", "example/firmware/src/ws2812.rs: Ws2812::write"]}
{"id": "C88", "title": "Calls of a client take effect at most once and one after the other, in an order that respects real time", "statement": "However the calls of one client overlap, the server receives the request of each call at most once; each request it receives turns the handlers' context into what its handler makes of it, in the order of receipt, and nothing else changes the context; a call that returns a reply returns what the handler of its endpoint gives for its request in the context left by the requests received before it; and the request of a call begun after another call has returned its reply is received after that one's.", "quantifier": "all applications, all configurations, all runs of a client and a server over order-preserving links, or over a USB cable packet by packet, of fewer than 2^32 calls, all interleavings, all outcomes of the server's sends", "why_tests_cant": "the order of concurrent calls depends on the scheduler, the queue, the workers and the cable; tests make calls one after the other", "anchors": ["source/postcard-rpc/src/host_client/mod.rs: HostClient::send_resp_raw", "source/postcard-rpc/src/host_client/util.rs: out_worker", "source/postcard-rpc/src/server/mod.rs: Server::run", "source/postcard-rpc/src/server/dispatch_macro.rs: define_dispatch"]}
{"id": "C89", "title": "The workbook example end to end: methods called on the host act on the board as if called one after the other", "statement": "However a program overlaps calls of WorkbookClient's methods, there is an order of the calls the board received such that the colours last given to the LED driver are what these methods, one after the other, make of a dark board; whatever a method returned, other than a communication error, is what it returns on a board in the state left by the methods before it (get_id the board's number, ping its argument, set_rgb_single success exactly for positions below 24, BadPositionError otherwise); and a method called after another one has returned comes after it in the order. If the device's sends succeed and nobody closes the client, every method called returns once host, cable and board, left to themselves, have come to rest, which they do after finitely many steps whichever they take; and it returns something else than a communication error, unless it is start_accelerometer and no task could be spawned for it.", "quantifier": "all keys that can be told apart, all serial numbers, all interleavings of any number of calls (fewer than 2^32) of client, workers, USB packets in both directions, server, spawned tasks and acceleration messages, all outcomes of the device's sends", "why_tests_cant": "the example runs on hardware and has no tests; the order in which concurrent calls reach the board is chosen by two schedulers and a cable", "anchors": ["example/workbook-host/src/client.rs: WorkbookClient", "example/workbook-icd/src/lib.rs: ENDPOINT_LIST, TOPICS_OUT_LIST, message types", "example/firmware/src/bin/comms-02.rs: MyApp, Context, handlers"]}
{"id": "C90", "title": "What an error tells the caller about its request", "statement": "When a call returns HostErr::Wire(e), the server refused the call's own request (or a publication given the same sequence number by the program) for the reason e names, in every session of a server: DeserFailed because the handler's (or the ping's) decoder rejects the body, UnknownKey because no handler has the key, KeyTooSmall because the received key is shorter than the dispatcher's, FailedToSpawn because the spawner refused the task, SerFailed because the reply could not be sent. Except for SerFailed (the handler has run) and FailedToSpawn (spawn_ctxt has run) the handlers' context is as before the request; no task runs for a refused request. A call of an endpoint the server handles can get only DeserFailed, SerFailed or FailedToSpawn if the server's messages have keys no shorter than the dispatcher's; FrameTooLong and FrameTooShort are never given.", "quantifier": "all applications define_dispatch! accepts, all handlers, all earlier sessions, all interleavings of client, workers, links (or USB packets), server and tasks, all outcomes of sends and spawns", "why_tests_cant": "which effects a refused request has had follows from the whole path of a request through the server, of the error back through a link that may cut it and of its match with a call; tests look at single errors", "anchors": ["source/postcard-rpc/src/server/dispatch_macro.rs: define_dispatch!", "source/postcard-rpc/src/server/mod.rs: Sender::error, Sender::reply", "source/postcard-rpc/src/host_client/mod.rs: HostClient::send_resp", "source/postcard-rpc/src/standard_icd.rs: WireError"]}
{"id": "C91", "title": "A schema report describes the server the client is connected to", "statement": "If get_schema_report on a client connected to a server returns a report, the report lists exactly the server's endpoints and topics with their paths and keys, in their order, and gives each key a type it was computed from: whatever sends of the server fail or are cut, whatever else client and server do, however late the messages come, and whatever earlier clients did. Unless some frame belongs to two topics the client has subscribed to, the report also has every type of the server. If in addition no send of an item or of the totals fails, the messages follow each other within 100 ms and the client's task keeps up (at most 64 messages waiting), a query whose request is answered returns the full report; with keys from endpoints! and topics! this needs only that no message is a bare usize, isize or a byte array hashed differently from Vec<u8>.", "quantifier": "all applications define_dispatch! accepts, all handlers and sessions, all interleavings of the query, its client, the workers, the links, the server and its tasks, all outcomes and cuts of sends", "why_tests_cant": "the report is assembled from a broadcast topic, a reply and a timeout on both sides of a link; which mixtures of loss, cut and delay give which report is not visible from single runs", "anchors": ["source/postcard-rpc/src/host_client/mod.rs: HostClient::get_schema_report", "source/postcard-rpc/src/server/mod.rs: Sender::send_all_schemas", "source/postcard-rpc/src/server/dispatch_macro.rs: define_dispatch!", "source/postcard-rpc/src/standard_icd.rs: GetAllSchemasEndpoint, GetAllSchemaDataTopic"]}
{"id": "C92", "title": "What a client holds on to is bounded", "statement": "However many frames arrive and however calls and subscriptions come and go, a client holds at most: outgoing_depth frames to be sent and one per worker; two waits or answers per call that has neither returned nor been dropped; and per subscription not dropped the depth asked for (less than twice the largest depth asked for in the case of a multi-subscription). Dropped subscriptions and finished calls hold nothing. Each subscription table has at most one entry per topic ever subscribed to; entries of dropped subscriptions stay until the next message of the topic, which removes exactly those of its topic, or the end of the client.", "quantifier": "every configuration, every run of the client: all interleavings of calls, subscriptions, drops, workers, frames", "why_tests_cant": "a leak shows only after many runs and only under the particular cancellation points that cause it; a bound on memory is a statement about all histories", "anchors": ["source/postcard-rpc/src/host_client/mod.rs: HostClient::send_resp_raw, subscribe_inner, subscribe_multi_inner, subscribe_inner_exclusive", "source/postcard-rpc/src/host_client/util.rs: in_worker_inner, Subscriptions"]}
{"id": "C93", "title": "What is typed at the terminal program is what is done", "statement": "Whenever the terminal program of the workbook example shows its prompt, the terminal holds the greeting, with the identifier of the board, followed by one turn per line typed: the words of the line alone decide which method is called with which numbers, what is printed is what the board answered, and the LEDs and the accelerometer are as these turns, in the order typed, have left them. One call is under way at a time. A line that is no command is complained about and changes nothing; no line makes the program panic. While the link works, every call returns and the program goes on.", "quantifier": "every line of characters, every sequence of lines, every interleaving of the program, the client's workers, the USB transfers, the server and the firmware's tasks; every number of calls below 2^32", "why_tests_cant": "the claim is about all texts and all schedules, and about the state of a board at the other end of a cable; the example has no tests", "anchors": ["example/workbook-host/src/bin/comms-02.rs: main", "example/workbook-host/src/lib.rs: read_line", "example/workbook-host/src/client.rs: WorkbookClient", "example/firmware/src/bin/comms-02.rs: define_dispatch!, handlers"]}
{"id": "C94", "title": "What a server publishes on a topic is what its subscribers receive", "statement": "Take a declared outgoing topic that is published by code of the application (not the schema topic, and by no topic handler). What a subscription of a client to it has received, with what it has queued, are, in the order of publication, messages that the server published on this topic with `publish` returning Ok: each at most once, with its sequence number and its bytes, none of them published before the subscription was made unless it was still on its way then. Once all that was sent has been handed on, none published since is missing, if the subscription was not dropped or replaced and no message was thrown away because its queue was full (a multi-subscription that lags is told how many it lost, and the numbers add up). Also before that, at any time: as long as the subscription was not dropped or replaced and lost nothing, what it has received are the first of the messages published since, up to some point, with no gap. If a failing send may leave something on the link, the values decoded are still in order among those published, and none that was published successfully is missing.", "quantifier": "every accepted application, every such topic, every kind of subscription, every interleaving of client, server, tasks and link; any number of publications, failed sends, and earlier sessions; also packet by packet over USB", "why_tests_cant": "publications, replies, cut frames and the subscription's own start interleave freely, and no test has a publisher and a subscriber with sends that fail; the claim covers all schedules", "anchors": ["source/postcard-rpc/src/server/mod.rs: Sender::publish", "source/postcard-rpc/src/host_client/mod.rs: subscribe, subscribe_exclusive, subscribe_multi, Subscription::recv, MultiSubscription::recv", "source/postcard-rpc/src/host_client/util.rs: in_worker", "source/postcard-rpc/src/server/impls/embassy_usb_v0_4.rs: send_all"]}
{"id": "C95", "title": "The logging example shows what the board logged", "statement": "Let the logging firmware of the workbook example run on the board and the host program `logging` on the host. At every moment the host has printed its greeting, the answer 42 to its ping, and then the texts of messages the board has logged (\"formatted: n\" for even n, \"Hello world!\" for odd n), in their order and none twice; nothing else. While it waits, and all that was sent has been handed on, no message sent without an error since it subscribed is missing, and if no send failed they are all messages from one number on. It prints \"Device disconnected\" only if the connection has ended. The frame of each message, made by log_str or log_fmt, is the same whatever the transmit buffer held and however the formatter cut the text.", "quantifier": "every schedule of the board, its ticker, the USB packets, the client's workers and the host's main; any number of messages (the counter wraps); any write that fails or is cut; 16, 32 or 64 bit on either side; all key lengths", "why_tests_cant": "the program runs for ever on hardware and no test covers it; log_fmt's frame depends on the old contents of its buffer and on the pieces, and a lagging reader is needed to see the false message", "anchors": ["example/workbook-host/src/bin/logging.rs: main", "example/firmware/src/bin/logging.rs: logging_task, MyApp", "source/postcard-rpc/src/server/mod.rs: Sender::log_str, Sender::log_fmt", "source/postcard-rpc/src/server/impls/embassy_usb_v0_4.rs: send_log_str, send_log_fmt", "source/postcard-rpc/src/host_client/mod.rs: subscribe_multi, MultiSubscription::recv"]}
{"id": "C96", "title": "The ping program of the workbook gets through its ten rounds", "statement": "Let the host program comms-01 run against a board. At every moment it has printed its rounds in order, \"Pinging with i... got i!\" for i = 0, 1, ..., each answer the number asked with; \"App is done\" only after all ten; its assert_eq! never fails. Against the firmware comms-01, if the board's sends succeed and the connection is not lost, host, cable and board, left to themselves, come to rest after finitely many steps however these are ordered, and then the program has printed all ten rounds and \"App is done\". It does not panic.", "quantifier": "every schedule of the board, the USB packets, the client's workers, the interval and the host's main; for the printed lines any board that serves the standard ping and any write that fails or is cut; all key lengths", "why_tests_cant": "it is a program without tests that needs the hardware; a lost connection at the moment of a ping and the order in which select! polls are needed to see the panic", "anchors": ["example/workbook-host/src/bin/comms-01.rs: main, run", "example/workbook-host/src/client.rs: WorkbookClient::ping, wait_closed", "example/firmware/src/bin/comms-01.rs: MyApp, ping_handler", "source/postcard-rpc/src/host_client/mod.rs: send_resp, wait_closed"]}
{"id": "C97", "title": "A board's USB devices are set up once each, and a host finds and names them", "statement": "Let a program make WireStorages and call init, init_without_build or init_poststation on them. If each storage is used once, no call panics, and each gives a device with a fresh transmitter (nothing pending, log numbers from 0) on the buffer it was given and with the server's interface first. A device of init_poststation answers a request for the string of its interface in US English with \"Poststation\", and every other request for a string with nothing, whatever is set up before or after; a device of the other two gives the application's strings only. A host that looks for the device connects to the endpoints its server uses.", "quantifier": "every sequence of set-up calls on any storages with any endpoint addresses, buffers, further interfaces and string handlers of the application; every string index and language; every list of devices and both kinds of operating system", "why_tests_cant": "needs hardware and several devices in one program; the statics are shared between storages, so the order of calls matters", "anchors": ["source/postcard-rpc/src/server/impls/embassy_usb_v0_4.rs: WireStorage::init_poststation, init, init_without_build, PoststationHandler::get_string, STINDX, HDLR", "source/postcard-rpc/src/server/impls/embassy_usb_v0_3.rs: the same", "source/postcard-rpc/src/host_client/raw_nusb.rs: try_new_raw_nusb"]}
{"id": "C98", "title": "A host and a board of different versions do not misread one another", "statement": "Let a host be built with another interface than the board: other endpoints, topics, or endpoints of the same path with other types, so other keys. If the keys of the two versions differ, then whatever the two do: the board runs the handler of an endpoint or a topic only for calls or publications with exactly its key; a call gets a reply only if the board handles an endpoint with both its keys, and then the one to its own request; a request of which the board does not know the key changes nothing on the board and gets the error UnknownKey; a subscription to a topic the board does not send receives nothing; and every call returns.", "quantifier": "every application that define_dispatch! accepts, every interface of the host, every interleaving of calls, publications, subscriptions and of what the board does, in the first session", "why_tests_cant": "both ends are built from one version of the interface in every test; what happens between two versions depends on all keys of both, on the lengths to which they are shortened, and on interleavings", "anchors": ["book/src/comms-postcard-rpc.md: \"so does the key! This means that we never have to worry about ... misinterpreting the data\"", "source/postcard-rpc/src/server/dispatch_macro.rs: define_dispatch!, handle", "source/postcard-rpc/src/host_client/mod.rs: send_resp, wait", "source/postcard-rpc/src/host_client/util.rs: subscriptions, ContextualFrame", "source/postcard-rpc/src/header.rs: VarKey, shrink_to"]}
{"id": "C99", "title": "The programs of the example firmware without a network", "statement": "In every run of hello-01, hello-02 or hello-03: each round of the LED task writes 24 colours, of which the four in a row from the position of the round, going round the board, have a sixteenth of the program's colour and the others are dark, so that of any 24 rounds each LED is lit in four; this is what the LEDs show if rounds are at least 770 µs apart. A button is shown as pressed exactly if its pin is low, and what is logged of the buttons are the readings that differ from the one before. What is logged of the potentiometer are the readings more than 64 from the one last logged, or from the first. Every reading of the accelerometer is logged. The program panics exactly when a sensor cannot be read. uhoh-00 fades all LEDs in red up to 32 and down in steps of one. The identifier logged is that of the flash, highest byte first.", "quantifier": "every interleaving of the tasks, every level of the pins and every value of the sensors at every round; any number of rounds", "why_tests_cant": "needs a board; the tests of the repository do not build the firmware", "anchors": ["example/firmware/src/bin/hello-01.rs: led_task", "example/firmware/src/bin/hello-02.rs: button_task, pot_task, led_task", "example/firmware/src/bin/hello-03.rs: accel_task", "example/firmware/src/bin/uhoh-00.rs: led_task", "example/firmware/src/lib.rs: get_unique_id, Buttons, Potentiometer, Accelerometer"]}
{"id": "C100", "title": "Raw calls and hosts that know only the report", "statement": "A call made with send_resp_raw by the keys of an endpoint, with any sequence number, that returns a reply returns the reply the endpoint's handler gave to this call's request; an error it returns is one sent for it. A call that registers while another one with its number waits for its answer is refused, sends nothing and does not disturb the other. If the numbers of all calls differ, every call returns. So a host that knows of a server only its schema report, and takes the keys from it, gets from every endpoint listed the replies to its own requests.", "quantifier": "every application that define_dispatch! accepts, every session, every interleaving of typed and raw calls with any sequence numbers, publications, and of what the server does", "why_tests_cant": "raw calls are made in no test; which request a reply belongs to depends on numbers the caller chooses, on calls given up and on interleavings", "anchors": ["source/postcard-rpc/src/host_client/mod.rs: send_resp_raw, SchemaReport, get_schema_report", "source/postcard-rpc/src/header.rs: VarSeq, VarKey, PartialEq", "source/postcard-rpc/src/server/dispatch_macro.rs: define_dispatch!, handle"]}
{"id": "C101", "title": "accel listen shows what the sensor measured", "statement": "Let the workbook firmware run on the board and the terminal program comms-02 on the host. The accelerations that `accel listen` has printed since its line was typed are readings of the sensor that the firmware published, in their order, with none missing in between whose publish returned Ok; they begin with what was still on its way when the program subscribed (nothing, if client, cable and board had nothing left to do), followed by what has been published since. Once the program waits for the next reading and nothing is left to do, it has printed them all. What is published are the sensor's readings, each once and in order, all but at most the last. The readings it prints are of a stream with the interval and the range that were typed. The program dies while receiving only if the connection has ended.", "quantifier": "every session of typed lines, every schedule of the firmware's task, its ticker and sensor, the USB packets, the client's workers and the host's main, every outcome of a write, all key lengths", "why_tests_cant": "the program runs only with hardware and no test covers it; whether a reading is lost or repeated depends on the broadcast channel, the client's workers, the cable, and on the task's life between start and stop", "anchors": ["example/workbook-host/src/bin/comms-02.rs: accel listen", "example/firmware/src/bin/comms-02.rs: accelerometer_handler, accelerometer_stop_handler", "example/workbook-icd/src/lib.rs: Acceleration, AccelTopic", "source/postcard-rpc/src/host_client/mod.rs: subscribe_multi, MultiSubscription::recv", "source/postcard-rpc/src/server/mod.rs: Sender::publish"]}
{"id": "C102", "title": "A new host process on a running USB device gets the answers to its own requests", "statement": "A host process may end at any moment, and another one open the device, which stayed connected and did not notice. A call of the new process that returns a reply returns the reply its endpoint's handler gave to this call's own request; an error it returns was sent for one of this process's own messages; all its calls are answered; the handlers go on with the context the earlier processes have left.", "quantifier": "every application that define_dispatch! accepts, any number of host processes one after the other, each ended at any point of a session of calls, publications and failed sends; every interleaving of what the new process and the device do, packet by packet", "why_tests_cant": "a new process counts sequence numbers from 0 again; what goes wrong depends on the packet at which the earlier process ended, which the tests on channels have not and no test with a device covers", "anchors": ["source/postcard-rpc/src/host_client/raw_nusb.rs: try_new_raw_nusb, NusbWireTx::send, NusbWireRx::receive", "source/postcard-rpc/src/server/impls/embassy_usb_v0_4.rs: EUsbWireRx::receive, EUsbWireTx::send, send_all", "source/postcard-rpc/src/host_client/mod.rs: HostClient, send_resp_raw", "source/postcard-rpc/src/server/mod.rs: Server::run"]}
{"id": "C103", "title": "A USB device that is disconnected and connected again serves its next host", "statement": "A USB device may be disconnected at any moment, in the middle of a request or of a reply, and connected again any number of times. A call of the next host that returns a reply returns the reply its endpoint's handler gave to this call's own request, or that of a handler task spawned for an earlier connection, to a request with the same number for the same endpoint (without spawned handlers: always its own). An error it returns was sent on this connection for one of its own messages. All its calls are answered. The first message is handled in the context the earlier connections have left.", "quantifier": "every application that define_dispatch! accepts, any number of connections, each interrupted after any packet in either direction; every interleaving of what client and device do, packet by packet", "why_tests_cant": "the device keeps its transmitter (with pending_frame), context and tasks across connections; what is left depends on the packet at which the cable was pulled, and no test has a device", "anchors": ["source/postcard-rpc/src/server/impls/embassy_usb_v0_4.rs: EUsbWireRx::receive, send_all, EUsbWireTxInner::pending_frame", "source/postcard-rpc/src/server/mod.rs: Server::run", "source/postcard-rpc/src/host_client/raw_nusb.rs: try_new_raw_nusb, NusbWireRx::receive", "example/firmware/src/bin/comms-02.rs: main"]}
{"id": "C104", "title": "A client in a browser gets the answers to its own requests", "statement": "For a HostClient over WebUSB and a Server over the embassy-usb transport joined by a cable whose packets are written, carried and read one at a time, in any order with everything else: a typed call that returns Ok returned the decoded reply of its own request's handler, and an error it returns was sent in answer to a request. If no send fails, requests are shorter than the server's receive buffer and messages of the device are shorter than the browser's transfers (and than 1024 bytes), then client and server never block each other: left to themselves they come, after finitely many steps whichever they take, to a state in which every call is given up or answered.", "quantifier": "all applications, configurations, transfer lengths, interleavings of the client's workers, calls, the browser's transfers, the server's loop, spawned handlers and each packet write and read; outcomes of the device's writes", "why_tests_cant": "needs a browser and a device; a request's length decides whether it is answered, and what is lost depends on the request sent after it", "anchors": ["source/postcard-rpc/src/host_client/webusb.rs: WebUsbWire::send", "source/postcard-rpc/src/host_client/webusb.rs: WebUsbWire::receive", "source/postcard-rpc/src/server/impls/embassy_usb_v0_4.rs: EUsbWireRx::receive", "source/postcard-rpc/src/server/mod.rs: Server::run"]}
{"id": "C105", "title": "A call for an endpoint without a handler is told UnknownKey", "statement": "For a HostClient over nusb and a Server over the embassy-usb transport: a typed call for an endpoint of the shared list for which the server's dispatch table has no handler never returns a reply; the only error it can return from the server is UnknownKey for its own request, which leaves the handlers' context unchanged (an error for a publication of the same number apart). If no send fails, wherever the whole comes to rest it has returned HostErr::Wire(UnknownKey) or was dropped. The same in sessions after others that ended with the device idle or disconnected, though tasks spawned in those may still reply, if each handler's endpoint is in the list. With the example firmware `minimal`, whose tables are empty, each method of WorkbookClient so returns: ping the number it was given, the schema request its totals, every other one UnknownKey, whichever programs have used the board before; and no task is ever spawned.", "quantifier": "all applications, tables with any handlers missing, programs of the host, interleavings of client, packets, server and spawned handlers; for `minimal` all calls of the workbook's methods in any number and order", "why_tests_cant": "tests call endpoints that have handlers; that no key, at any key length, no number and no timing makes another answer come back is a statement about all runs", "anchors": ["source/postcard-rpc/src/server/dispatch_macro.rs: define_dispatch!", "source/postcard-rpc/src/server/mod.rs: Server::run", "source/postcard-rpc/src/host_client/mod.rs: HostClient::send_resp", "example/firmware/src/bin/minimal.rs: MyApp"]}
{"id": "C106", "title": "What a client publishes is what the server's topic handlers are given", "statement": "For a HostClient and a Server built by define_dispatch!, over any link that neither loses nor reorders messages and over a USB cable with nusb and the embassy-usb transport, in a first session or after earlier ones, where the host calls endpoints and publishes topics of the shared lists (raw calls and publications with their 8-byte keys): the topic handlers are given only what publish and publish_raw returned Ok for, with the sequence number and the value published, each message at most once and in the order in which the calls returned. A message to a topic without a handler or one that does not decode is given to none and delays nothing. If no message is larger than the server's receive buffer, its keys are at least as long as the dispatcher's and every task can be spawned, no message is left out; once the client has sent what it accepted and the server has taken it, all have been given; left to itself (with an open client, sends that succeed and keys that differ) the whole gets there, with every publication returned. And in the first session of a server, when a typed call has returned its reply, everything published before that call was begun has been given to its handler.", "quantifier": "all applications, key and sequence number lengths, programs of the host, earlier sessions, interleavings of client, link, server and handlers", "why_tests_cant": "Ok from publish means only that the message was queued; that nothing between the queue and the handler drops, doubles or reorders messages, however calls, replies and server work are interleaved, is a statement about all runs", "anchors": ["source/postcard-rpc/src/host_client/mod.rs: HostClient::publish, publish_raw", "source/postcard-rpc/src/host_client/util.rs: out_worker", "source/postcard-rpc/src/server/mod.rs: Server::run", "source/postcard-rpc/src/server/dispatch_macro.rs: define_dispatch!"]}
{"id": "C107", "title": "Over all sessions of a server its requests take effect one after the other", "statement": "For a Server built by define_dispatch! that HostClients use one after the other, over any link that neither loses nor reorders messages and over a USB cable with nusb and the embassy-usb transport (where the device was idle whenever a process ended, or was disconnected): over all sessions, the context of the handlers goes through one history. Each message received turns it into what its handler makes of it, nothing else changes it, and a session begins with what the one before has left. In every session the request of a call is received at most once, and a call that returns a reply returns what its endpoint's handler gives for its request in the context left by all that was received before it, in this session and the earlier ones; the only exception is the reply of a task spawned in an earlier session to a request for the same endpoint with the same number. In every session the request of a call begun after another call has returned, with a reply or an error, is received after the request of that one. In a session in which no task of an earlier one replies, everything published before a call was begun has been given to its handler when that call has returned its reply, if no message is larger than the server's receive buffer, its keys are at least as long as the dispatcher's and every task can be spawned.", "quantifier": "all applications, numbers of sessions, states in which they end, programs of the hosts, interleavings of client, link, server and handlers", "why_tests_cant": "tests run one client against a fresh server; that the server's state is a function of all messages ever received, in an order that respects when calls returned, is about all sequences of sessions and all runs of each", "anchors": ["source/postcard-rpc/src/server/mod.rs: Server::run", "source/postcard-rpc/src/server/dispatch_macro.rs: define_dispatch!", "source/postcard-rpc/src/host_client/mod.rs: HostClient::send_resp, publish", "source/postcard-rpc/src/host_client/util.rs: out_worker"]}
{"id": "C108", "title": "Hosts of different versions, one after the other, do not make a board misread them", "statement": "For a Server built by define_dispatch! that HostClients of different versions (each with its own endpoints and topics) use one after the other, over any link that neither loses nor reorders messages and over a USB cable with nusb and the embassy-usb transport (where the device was idle whenever a process ended, or was disconnected), provided the keys of each host's requests differ from those of the board at its key length, and those of the answers to the present host: whatever versions the earlier hosts had, the board runs the handler of an endpoint only for calls of this endpoint by the present host, that of a topic only for its publications of this topic. A reply a call returns is the board's to its own request, for an endpoint the board handles with this response; the only exception is the reply of a task spawned for an earlier host's call with the same sequence number, of an endpoint with the same response key. So a call of an endpoint the board does not handle returns no reply, unless the board spawns tasks for an endpoint with the same response; the error it returns was sent in this session and says that the key is unknown; its request changes neither the context of the handlers nor spawns a task. Left to itself, the system comes to a state in which all calls of the present host have returned, if endpoints of both versions with the same request have the same response.", "quantifier": "all boards, numbers and versions of earlier hosts, states in which their sessions end, programs of the hosts, interleavings of client, link, server and handlers", "why_tests_cant": "tests run a client and a server built from one interface, once; what a task left by a client of one version does to a client of another is about sequences of sessions with different interfaces", "anchors": ["source/postcard-rpc/src/server/dispatch_macro.rs: define_dispatch!", "source/postcard-rpc/src/server/mod.rs: Server::run", "source/postcard-rpc/src/host_client/mod.rs: HostClient::send_resp", "source/postcard-rpc/src/header.rs: VarKey"]}
{"id": "C109", "title": "Pages in a browser and host processes take turns on a USB device", "statement": "Pages (HostClient over WebUSB) and host processes (HostClient over nusb) use a Server over the embassy-usb transport one after the other, in any order and number. The device was idle whenever a host ended, or was disconnected and connected again in any state; no request of a page fills its last USB packet, and messages of the device are shorter than the browser's transfers and than 1024 bytes. Then whichever hosts came before, a call of the present one that returns a reply returns the one its endpoint's handler gave to this call's own request (decoded, or a decoding error if a failed send cut it), or that of a handler task spawned for a request of an earlier host, for the same endpoint and with the same number; without spawned handlers always its own. An error it returns was sent in this session for one of the present host's messages. If no send fails and requests are shorter than the receive buffer, host and device left to themselves come, after finitely many steps, to a state in which every call is given up or answered. The handlers' context is kept from host to host.", "quantifier": "all applications, configurations, transfer lengths, numbers and orders of pages and processes, states in which they end, interleavings of the client's workers, calls, transfers, the server's loop, spawned handlers and each packet write and read", "why_tests_cant": "needs a browser, a native host and a device in turn; what one leaves behind shows only in the next", "anchors": ["source/postcard-rpc/src/host_client/webusb.rs: WebUsbWire::new, send, receive", "source/postcard-rpc/src/host_client/raw_nusb.rs: NusbWireTx::send, NusbWireRx::receive", "source/postcard-rpc/src/server/impls/embassy_usb_v0_4.rs: EUsbWireRx::receive, send_all", "source/postcard-rpc/src/server/mod.rs: Server::run"]}
