# Formal model of postcard-rpc: design and trusted base

This directory holds a Lean 4 model of the postcard-rpc sources in `/repo/source/postcard-rpc/src`
and machine-checked proofs of the properties in `properties.jsonl`.
`MANIFEST.json` maps every property to the theorems that settle it.

## Layout

| path | contents |
|---|---|
| `lean/Verif/Model/*.lean` | the model, function by function, each definition citing the Rust lines it models |
| `lean/Verif/Spec/*.lean`  | small specifications, written without using the model's helper functions |
| `lean/Verif/Lemmas/*.lean` | helper lemmas (no property statements) |
| `lean/Verif/Props/*.lean` | the property theorems, each followed by an `example` that a concrete non-trivial case meets its hypotheses |
| `lean/Verif/Conform/*.lean` | the repository's own tests replayed on the model (checks of the model, not proofs of properties) |
| `seeded/LOG.jsonl` | mutation experiments: the edit, the claim it breaks, which theorems failed, which were tightened; attempts whose outcome is not known are marked inconclusive |

## Conventions of the model

* A byte is `BitVec 8`; `u16`, `u32` are `BitVec 16`, `BitVec 32`; slices and vectors are `List`.
  `usize` counters are `Nat` unless a property is about their overflow.
* Functions that can panic in Rust (index out of range, slice-length mismatch, `unreachable!`, `assert!`, arithmetic
  overflow where it matters) return `Exec α`, whose `panic` constructor is the explicit error value.
* `while` loops over indices are modelled as recursion on the same indices.
* Asynchronous code is modelled as a labelled transition system: each await point that another task can
  observe is a separate step, so theorems about all reachable states quantify over all schedules and all
  cancellation points.
* A theorem whose name ends in `_partial` proves less than the property says; the full statement is kept beside it as
  a definition, and where the full statement is false of the code a theorem ending in `_false` proves its negation
  from a concrete witness.

## Per property

| id | what is modelled | how it is proved |
|---|---|---|
| C01 | `write_to_vec`, `take_from_slice` | case split on key and sequence kinds, little-endian lemmas |
| C02 | same | inversion of the decoder, then list algebra |
| C03 | `take_from_slice` with its `unreachable!` arm as `panic` | characterisation theorem over all byte lists |
| C04 | `write_to_vec` against an independent arithmetic layout | case split |
| C05 | `write_to_slice` as buffer mutation | case split on the buffer length |
| C06 | `from_key*`, `shrink_to`, `try_from_varkey` | against a group-wise XOR fold on byte lists |
| C07 | `PartialEq for VarKey` | against "equal after truncating both to the shorter length" |
| C08 | `PartialEq for VarSeq`, `resize` | bit-vector arithmetic |
| C09 | `min_key_needed` with its four nested index loops | loop invariant by induction, then minimality |
| C10 | `sizer` block of `define_dispatch!` | from C09 and monotonicity of the folds |
| C11-C16 | `handle` and its arms, with handlers, codec and wire outcomes as parameters | symbolic execution, uniqueness from C10 |
| C17, C18 | `Server::run` over an arbitrary list of receive results | induction over the list, refinement to a fold |
| C19, C20 | `send_all_schemas`, `get_schema_report`, `SchemaReport` | induction over the lists; counting argument for C20 |
| C21-C25 | `uniques.rs` over nested schema trees | structural induction; arrays and loops refine to a pure list function |
| C26-C29 | `CobsAccumulator`, serial receive loop, COBS codec | simulation against a byte-at-a-time splitter |
| C30-C33 | embassy-usb `send_all`, `receive`, packets and transfers | induction over packets; crash points as an arbitrary cut of the packet trace |
| C34 | `send_log_fmt` and helpers | buffer algebra; exact characterisation of sent, refused and panicking inputs |
| C35-C43, C48 | host client as a transition system | inductive invariants over all reachable states |
| C44 | client against the frames of a dispatcher | from C10 and C36 |
| C45 | client, links, server and spawned tasks composed into one transition system | inductive invariant tying every frame on the links to its request |
| C46, C47 | `raw_nusb.rs` receive and transmit | induction over completions; packetisation lemma |
| C49 | device transmitter, packets, host receiver composed | blocks of 1024 bytes against packets of 64 |
| C50 | `webusb.rs` send | packetisation lemma |
| C51 | `endpoints!`, `topics!`, `concat_arrays!`, the standard tables | the macros' arrays refine to list functions; types from C23 |
| C52 | an application whose lists come from those macros, with `define_dispatch!` | C51 supplies the hypotheses of C10, C11, C14, C19 |
| C53, C54 | all of `WireTx for EUsbWireTx`: transmit buffer, log counter, the four operations | refinement of each operation to `send_all` on its frame, then C31's invariant |
| C55 | `SerialWireRx::recv_inner` with read errors and empty reads, called by the in-worker | from C29's simulation |
| C56, C57 | `WebUsbWire::receive` and `send`, IN transfers of any length | packets against transfer length, both residue cases |
| C58 | interface macros, `unique_types`, `define_dispatch!`'s device map, `SchemaReport::default` and `get_schema_report` | C51's type lists composed with C20; external: key function, and the key of a primitive depends only on the primitive |
| C59, C60, C61 | `ChannelWireTx` and `ChannelWireRx` with stopper, any number of tasks | transition system over one bounded channel, invariant over the event history; C61 composed with C17 |
| C62, C63 | client transition system with its subscription tables | first-loss invariant on broadcast queues with the capacities asked for; registration invariants of C40 |
| C64 | `Subscription::recv`, `MultiSubscription::recv` | induction on the queue, each typed receive shown to be a block of raw receive steps |
| C65 | client transition system, transmit worker | invariant over all runs without close and transport errors; schedule constructed by induction on the queue |
| C66 | client transition system | ranking function decreasing with every step of the client's own; case analysis of the states without such a step |
| C67 | composed system of client, server and links | invariant: the request or answer of every waiting call is in one of six places; lexicographic measure decreasing with every step of the system's own; case analysis of states without such a step |
| C68 | USB transmitter | the result is that of the first write not completed, by induction over the packets |
| C69 | dispatcher, server loop | relation between contexts, per frame by cases of the match arms, along the run from C17 |
| C70 | client transition system | invariant on the queue's length, and C48 |
| C71 | client transition system | induction over the run: which step can set `stopped`, which can refuse; typed calls by C35 (numbers unique) |
| C72 | host USB transmitter, device receiver, server loop, dispatcher, device transmitter, host receiver, composed (`Model/UsbServer`) | C47, C53, C49, C68 composed; logs faithful to their environment by induction over dispatch |
| C73 | `send_all` with packet timings and the timer, `set_timeout_ms_per_frame` (`Model/UsbTimed`, refining `send_all`) | induction over packets: the future on its own against the packets under the limit; induction over histories |
| C74 | the composed system with failed sends leaving beginnings of frames on the link (`SysCfg.cut`) | the invariant of C45, with every byte string on the link a beginning of a frame sent; uniqueness of the header at the front of a byte string |
| C75 | the composed system with the server's key length a parameter (`SysCfg.kkind`) | the custody invariant of C45 at that length; for short lengths an invariant that a call begun after the client adapted is sent with keys of that length |
| C76 | the composed system with `tokio` channels of bounded capacity between client and server (`Model/Bounded`) | refinement of the unbounded system; a full channel always leaves the client's receive worker a step to take, so what is stuck over bounded channels is stuck over unbounded ones, where C67 applies |
| C77 | the composed system over any number of sessions: `Sys.reconnect` keeps the server's context and its spawned tasks and starts a new client (`Model/System`) | the invariant of C45 generalised to tasks of earlier sessions; induction over the sessions traces each of them to a call of its own client; the liveness argument of C67 from the start of any session |
| C78 | the USB senders and receivers of both sides (`Model/Nusb`, `Model/EUsb`) with the packets of one process cut off at any place and those of another after them | the receive loop of the device equals the joining of packets into frames (`Spec.framesOf`) for every packet sequence; joining is compositional in the frame in progress |
| C79 | `try_new_raw_nusb`, `try_new_raw_nusb_with_interface`, `try_from_nusb_and_interface`, `WebUsbWire::new` over lists of devices, interfaces, settings and endpoints; the interface the USB server declares (`Model/Connect`) | induction over the endpoints for the scan; first and last accepted members stated without the model's functions |
| C80 | `test_utils.rs`: `local_setup`, `LocalRx::receive`, `LocalTx::send`, `LocalFakeServer`, composed with the client's transition system (`Model/Local`) | refinement: every run of the pair is a run of the client; invariants on both channels by induction over runs; a rank for the steps of the pair's own |
| C81 | `example/firmware/src/bin/comms-02.rs`: the six handlers and the state they share (`Model/Example`) | invariants by induction over runs of the handlers interleaved with the streaming task; a rank for the steps after a stop |
| C82 | `HostClient::get_schema_report` as it runs: subscription, request, the collecting task and its timeout (`Model/Query`), on top of the client | invariant by induction over runs of query, client and clock: nothing lost from the subscription's buffer (C62), what was taken is a prefix of the arrivals, the deadline is never less than 100 ms after the last arrival once everything is taken |
| C83 | the receive worker's wait for room (util.rs 281-305) with a clock and the queue of arrived messages (`Model/Stall`), on top of the client | invariant by induction over runs in which time passes only when the worker rests: the end of the sleep is at most the timeout after the later of the message's arrival and the end of the one before; sum over the queue; existence of resting points by a decreasing measure; a family of runs for the exact bound |
| C84 | `Model/UsbSys`: the composed system with the packets of both directions on a cable (raw_nusb.rs 346-511, embassy_usb_v0_4.rs 240-628), one step per packet written, carried or read | forward simulation to the composed system of C45 (the abstraction completes what is on the cable; invariant: the packets on the cable are the packets of the messages not yet taken); C74 and C67 carried over; termination by a lexicographic measure over the abstract work and the packets on the way; agreement of the steps with `send_inner`, `send_all`, `rx_loop`, `rx_drain` by induction |
| C85 | `Model/Postcard`: writers and readers of the standard messages (standard_icd.rs 20-125, lib.rs 417-424) as their derives give them under postcard's documented wire format | readers are compositional: each reads back what its writer wrote whatever follows (`Reads`) and looks only at what it takes (`LocalDec`), which excludes accepting a cut; induction over the varint; C74 and C82 applied with these codecs |
| C86 | as for C72 (`Model/UsbServer`, `Model/EUsbTx`, `Model/Dispatch`, `Model/Usb`, `Model/UsbRx`), with sends that fail because the message does not fit or does not serialize | a log of the server is related to the frames the host must get by leaving out the refused ones (`Thinned`); a refused send writes no packet (`usb_send_refused`); induction over the requests; case distinction over all headers (`frame_for`) for totality |
| C87 | `Model/Ws2812`: words, PIO program instruction by instruction and cycle by cycle (side-set, delay, automatic refill, stall), FIFO of eight with the DMA channel behind it, wait of 55 µs; RP2040 semantics from its documentation | the state machine is a refinement of a line that sends bits (`Line`, `Sends`, `cycle_line`, `run_line`), by induction over cycles; the strip (`Spec/Ws2812`, from the LED's data sheet) decodes the levels cycle by cycle (`Got`, `got_bits`, `got_reset`) |
| C88 | `Model/System`, `Model/UsbSys` as for C45 and C84 | the accepted frames of the client are matched with their calls and publications, no call twice (`OriginInv`, `reachable_origin`), by induction over the client's steps; the chain of contexts is an invariant of the composed system (`CtxInv`, `sys_run_ctxInv`), each link given by C69; replies by C74; sequence numbers and key distinctness identify requests (`asked_origin`); the cable by the simulation of C84 |
| C89 | `Model/Workbook` (message codecs, application, methods) on `Model/Example`, `Model/UsbSys` | every codec of the ICD is read back (`reads_*`), handlers and methods are matched by their keys (`method_row`, `method_leaves`, `method_answer`); the order is that of the byte strings given to the dispatcher for a call (`orderTo`), the board follows by induction over the contexts of C88 (`board_at`); that methods return: `WholeInv` (no message is cut), C84's rest theorem, `method_whole` (a whole reply is decoded) and C90's reasons (`method_refused`: only an unspawned task is left) |
| C90 | `Model/System`, `Model/UsbSys`, `Model/Postcard` | `Refusal` lists the reasons with the context each leaves; `handle_tells` reads them off the dispatcher, `ErrInv` carries them through runs and sessions, `error_message` (from C74) matches the error with the call; a cut error is not decoded (`c85_error`) |
| C91 | `Model/QSys` (`Model/Query` on the client of `Model/System`) | Three invariants of the composed run: what the server has sent on the schema keys (`SchInv`: in order, each item once, the totals last, counting the failures), what the client was given of it (`OrdInv`: in the order sent, complete up to the last frame received), what the task took (`GInv`). Together: the items collected are a sublist of the device's and the totals are the device's, so C20 gives exactness and C82 completeness. For the types (`c91_types`): a report needs totals without failures, then every item went out whole; what the task took is a beginning of what arrived (`PInv`), and the types come before the endpoints. `Model/QUsb`, `Lemmas/QUsb`: the same query over `Model/UsbSys`; by the simulation of C84 a run is one over links with whole messages, without the client's receipts of empty transfers, which change neither the query nor the silence (`Thinned`) |
| C92 | `Model/Client`, `Model/Subs` | Sizes of the parts of the client's state. Waits: the identifiers in the wait map and among the answers are distinct and each belongs to a call under way (invariants of C29-C31), counted against the calls. Queues: step invariants `QOk`, `BQOk` (no more than the capacity); capacities and topics traced to the subscribing labels (`Within`). Tables: distinct keys, each one subscribed to. The entries left behind by dropped subscriptions are exhibited by a run for any list of topics |
| C93 | `Model/Repl` (on `Model/Workbook`, `Model/UsbSys`) | A program counter for `main` of the terminal program, joined with the whole USB system of the workbook board. `Spec/Repl` has its own definition of words, decimal numbers, complaints, turns and dialogues; `split_whitespace` and `parse` of the standard library are modelled and shown to agree with these. Invariant `ReplInv`: calls are made one by one (`OneByOne`), from which, with c89_board, the order of effects on the board is that of the calls; and where the program stands fits what is on the terminal (`Status`). c93_goes_on uses c89_returns |
| C94 | `Model/System`, `Model/UsbSys`, `Model/Client` | `Spec/Topics` reads the calls of `publish` and their outcomes off the run. `Lemmas/Topics`: frames that come out of the link are, in order, beginnings of what was sent (the order invariant of C91, `Watch`), so those with the topic's key that arrive after the subscription are some of the publications (`Heard`); with c40_delivery_order and c40_all_delivered_partial this gives what the subscription holds. Over USB by the simulation of C84, which keeps the publications (`sim_publications`). `Spec/NoGaps`, `Props/NoGaps`: at any time the order invariant splits the publications into those heard and those still coming, so nothing is missing before the last heard |
| C95 | `Model/Logging` on `Model/UsbSys`, `Model/EUsbTx` | The two programs as programs around the USB system. `Lemmas/Logging` splits a run into that of the system and what the programs did (`LgTrace`), shows that the one ping returns 42 (`Lemmas/Ping`, from the calls' theorems of C90 and C91), that the subscription is the only one and keeps its counts (`Lemmas/BrxStep`), and then uses C94. `Lemmas/LogText`: both ways of writing a message decode to its text, also the length field padded with continuation bytes that log_fmt writes |
| C96 | `Model/Pings` on `Model/UsbSys` | The host program as a program around the USB system, for any application on the board. `Lemmas/Pings`: an invariant that the calls are pings of 0, 1, 2, … and the terminal shows them (`Lemmas/Ping` gives the answers). `Lemmas/PingsLive`: a ping is never refused (cause analysis of C90), a whole reply decodes, and the program's rank with the finiteness of the system's own steps (C67, C84) bounds every run |
| C97 | `Model/Setup` | The statics, the builder and the devices built as a state; `Lemmas/Setup` gives the state after any calls in closed form, by induction; the connection is that of C79 |
| C98 | `Model/System`, `Model/UsbSys` | A host with an interface of its own is the application's client of the union of both interfaces (`withHost`); the lemmas on routes, on replies and on errors need only parts of what `define_dispatch!` checks (`Routes`, `Receives`, `Dispatches`), and each part is shown from what the keys satisfy; short keys and changed responses as witnesses; over the cable through the simulation of C84 and the lemmas behind its liveness |
| C99 | `Model/Hello` | One step per round of a task, in any order; an invariant gives the counters, the writes and the log in terms of the rounds so far, by induction; which LEDs four steps of the chained iterators reach is a finite table; the strip is that of C87 |
| C100 | `Model/System`, `Model/Query` | The invariant of the composed system is proved without the assumption that calls are typed (`SysInvR`); that numbers differ is a condition on the final list of calls, inherited by every state before; refusal from the table of waiters; the report by C91; the witness is a run in which a call is given up. Numbers used again: an invariant says of every message accepted which call sent it, of every frame offered to the waiters which message of the server it is, and that no two whole answers are for the same request; so a waiter, whose number no call left behind, is woken only by the answer to its own request. Over a USB cable by the simulation of C84, which does not look at what calls are made |
| C101 | `Model/Listen`: the program of C93 with its subscription, the firmware of C89 with the task of `Model/Example`, joined to the USB system | The run of everything is a run of the USB system (`LsTrace`), its publications are the task's readings, so that the theorem on gaps behind C94 applies; an invariant says that while it listens the program has shown exactly what its subscription has returned; a second one that the task publishes each reading once; the witness is a run with nine readings; a third invariant, over the calls that the program has made one by one since C93, says that a task spawned in the turn was asked for by its own call |
| C102 | `Model/UsbNext` | The end of a process is a step from the last state of its session to the first of the next; for an idle device the abstraction of that step is the reconnection of C77, so sessions over the cable are sessions of the link of `Model/System` and C77's lemmas apply; the witnesses are runs of two sessions |
| C103 | `Model/UsbNext` | Disconnection is a step from any state to the first of the next connection; whatever the state, its abstraction is the reconnection of C77 (the empty packet that ends a message left off before is ignored by the client), so sessions over the cable are sessions of the link of `Model/System` |
| C104 | `Model/WebSys` | A step of the system with the browser is one of the system with nusb if messages are of lengths the browser deals with (`web_step`); a state with no step there has none with nusb (`web_stuck`), so C84 carries over; for requests that fill their last packet an invariant counts the packets on the way that end a message |
| C105 | `Model/Minimal` with `Model/UsbSys` | Of the reasons a server has to refuse a request (C90) only `UnknownKey` is left if no handled key agrees with the request's at the dispatcher's length (`refusal_unknown`); replies come from handlers (`reply_needs`); C84 says that there is an answer |
| C106 | `Model/System`, `Model/UsbSys` | An invariant keeps, for every message the client has queued, whether it is a publication and which; what handlers were given is what the first `taken` of them say (`PubInv`); a request of a call is queued after all that was queued before it was begun (`asked_after_enq`); the run over the cable is one of the link with the same publications (`sim_published`) |
| C107 | `Model/System`, `Model/UsbNext` | Induction over sessions (`sessions_history`) with the invariant of C88 on recorded contexts in each; what the client accepts after a state does not come from calls that had sent their request in it (`Since`), so requests of calls that have returned come before (`asked_before`) and those of later calls after (`asked_after_enq`) what had been accepted |
| C108 | `Model/System`, `Model/UsbNext` | the invariant of C45 for the board's application with the host's endpoints and topics added (as in C98) holds anew at the start of each session, whatever the host before; tasks of earlier sessions are traced to a call of the host of their session (`host_start`, `host_stale`) |
| C109 | `Model/WebNext` | sessions of pages are sessions of processes seen from the device, if requests are of lengths the browser deals with (`web_sessions`, from `web_run` of C104); then C102 and C84 apply to the session after them |

## Where the code and a property (or the documentation) disagree

Each item names the theorem that proves it.

* **C08**, documentation only: the comment on `VarSeq` (header.rs 232-233) says sequence numbers of different lengths are
  not treated as equivalent; the `PartialEq` below it compares the values whatever the widths (`c08_seq_eq_iff`).
* **C11** `c11_request_routing_false`: with `omit_std = true` the ping and schema keys take no part in choosing the key
  length but are still matched first, so they can shadow a user's endpoint.
* **C13** `c13_unknown_key_false`: a key longer than the dispatcher's is folded before matching, so a key that belongs to
  nothing can run a handler.
* **C18** `c18_reply_failure_false`: after a failed reply the dispatcher tries a `SerFailed` frame and returns only the
  outcome of that; the reply's own error (a timeout, say) is lost.  Ping is not affected (`c18_ping_reply_failure`).
* **C19** `c19_schema_dump_overflow`: outside the property's range, with more than 65535 entries, the counter overflows.
* **C20** `c20_report_exact_false`: counts are compared, not contents, so an entry seen twice (another client asked for
  schemas at the same time) hides a lost one.  `c20_type_loss_unnoticed`: lost type messages are not counted at all.
* **C22** `c22_unique_types_complete_false`: the types strictly inside the payload of a newtype variant are not listed.
* **C28** `c28_cobs_progress_false`: a feed to an exactly full accumulator can consume nothing (it empties the
  accumulator, so the loop still ends); with capacity zero it never ends (`c28_cobs_zero_capacity_stuck`).
* **C29** `c29_serial_short_frame_lost`: the host drops serial frames of fewer than nine bytes, among them legal replies.
  `c29_serial_long_frame_spurious`: an overlong frame can turn into a frame nobody sent.
* **C32** `c32_usb_receive_false`, `c32_usb_receive_exact_fit_refused`: a frame exactly as long as a buffer of a multiple
  of 64 bytes is refused.  `c32_usb_receive_misaligned`: with other buffer sizes the tail of an oversized frame is
  delivered as a frame.
* **C33** `c33_usb_timeout_overflow`: the timeout of an 8 MiB frame overflows on 32-bit devices.
* **C34** `c34_log_fmt_length_panic`, `c34_log_fmt_long_panics`, `c34_log_fmt_panics_iff`: the length field is one byte
  for up to 255 bytes of space, so texts of 128 bytes and more panic; a text that does not fit panics instead of being
  truncated.
* **C38** `c38_closing_false`: a receive worker in the middle of a poll still processes a frame after `close`.
* **C40** `c40_all_delivered_false`: with two subscribed topics whose shortened keys agree, the first takes the
  other's messages.
* **C42** `c42_adapts_key_length_false`: the client learns a key length only when the answer's differs from the length
  the *call* used, so an answer to an older call can leave a stale length in place.
* **C43** `c43_configured_width_false`: the configured sequence-number width is never used; calls always send four bytes.
* **C44** `c44_errors_distinguishable_false`, `c44_collision_blocks_calls`: the error key takes no part in choosing the key
  length; if its short form equals a response key's, errors are returned as replies, and from then on every call of that
  endpoint fails.
* **C45** `c45_end_to_end_false`: for the same reason.  `c45_publication_fails_call`: a publication (which carries
  whatever sequence number the caller chose) to a topic the server has no handler for makes a pending call with that
  number fail.  The macro checks request and response keys of handlers separately, so a handler whose pair of keys is
  not one of the declared pairs is accepted; the composed theorem needs no assumption about this.
* **C46** `c46_no_loss_false`: a transfer that completed well while a stall is being recovered is thrown away.
* **C49** `c49_usb_link_false`, `c49_usb_link_blocks`: frames of 1024 bytes and more reach the host in pieces.
* **C50** `c50_webusb_transmit_false`, `c50_webusb_joins`: WebUSB never ends a frame that fills its last packet; the device
  joins the next frame to it.
* **C55** `c55_serial_end_false`, `c55_serial_eof_waits`: at end of file (`read` returning 0, for example an unplugged
  port) the serial receiver reads again without end, so the client never learns that the connection is gone.
* **C56** `c56_webusb_receive_false`: with a transfer length that is not a multiple of 64 (the crate's example uses 1000),
  a longer frame ends the connection (`c56_webusb_babble`); otherwise it arrives in pieces (`c56_webusb_blocks`).
* **C57** `c57_webusb_send_false`: a stalled OUT transfer is reported as sent.
* **C58** `c58_report_given_false`: `is_prim` counts `usize` and `isize` as known to the host (uniques.rs 58-59), but
  `SchemaReport::default` has them commented out (host_client/mod.rs 1019-1022).  A device with an endpoint taking a
  `usize` can never be described: the report fails with `InvalidReportData`.  The same happens for a byte array type
  unless its key is that of `Vec<u8>`, which the host inserts in its place (1032).
* **C60** `c60_log_order_false`: a log call takes its number before it waits for the channel, so with two tasks the later
  number can arrive first.
* **C61** `c61_stop_false`: `select!` is not `biased` in `inner_send` and `receive` (test_channels.rs 139, 265), so after
  `stop` a frame can still be sent and received if that branch is ready too.
* **C62** `c62_depth_honoured_false`: `subscribe_multi_inner` (host_client/mod.rs 488-518) ignores the depth asked for when the
  topic already has a channel; a subscriber that asked for 4 lags with 2 unread messages because the first asked for 1.
* **C63** `c63_ends_for_a_reason_false`, `c63_multi_ends_for_a_reason_false`: after a send to a dropped subscription fails, `retain`
  (util.rs 309-320) removes all entries equal to the arriving short key, so a live subscription to another topic whose short
  key agrees ends too.
* **Remark on C65** `c65_close_discards`: with `close` a publication that returned `Ok` may never reach the transport.
- **C67, calls without an answer.** A call has no timeout of its own. If its request does not fit the server's receive buffer the server drops it without an answer (server/mod.rs 436), if the reply's send fails with an error the server goes on and the reply is gone (server/mod.rs 447-454), and a subscription to a key that agrees with the response key at the length in use takes the answer (util.rs 235-321). In each case the call waits for ever (`c67_oversized_request_hangs`, `c67_failed_send_hangs`, `c67_subscription_takes_answer`).
* **C73**: `send_all` allows time for `ceil(len / 64)` packets, but writes one packet more for a frame whose length is a multiple of 64 and one more after an interrupted frame. A host that takes every packet just within the allowance makes these sends (and only these, `c73_usb_prompt_host_partial`) fail with `Timeout`; 64 bytes at the default 2 ms are a witness. Taking packets within a third of the allowance is always enough.
* **C75.** `Server::new` takes a key length and does not check it against `D::min_key_len()`. With a smaller one the first answer makes the client shorten its keys and the dispatcher then refuses every later call as `KeyTooSmall` (`c75_short_locks_out`, `c75_short_second_call_refused`); with colliding outgoing keys calls return publications as replies (`c75_short_keys_cross`). The doc comment of `Sender::new` (server/mod.rs 187) says the length "should usually" come from `min_key_len()`, and the examples do so; this is misuse that the API permits.
* **C77** After a connection ends the server is kept and `Server::run` called again (as the examples do), while tasks spawned for the earlier client go on and hold clones of the `Sender`. A new `HostClient` numbers its calls from 0 again. The late reply of such a task, with the same endpoint and sequence number, is returned by the new client's call as its own. Nothing in a frame tells sessions apart. Applications without spawned endpoint handlers are not affected.
* **C78** The device joins packets until a short one comes and keeps no notion of the process that sent them. If a process ends after the data of a frame whose length is a multiple of 64 and before the empty packet that ends it (`raw_nusb.rs` 380-385 submits them as two transfers, and transfers still queued are cancelled when the process ends), the first frame of the next process is appended to it: the server sees one message with the old header, and the new request is lost. In the other direction the new process may receive the second half of a frame as a message of its own.
* **C79** `raw_nusb.rs` 95-97 and 172-174 take the *position* of the interface in `DeviceInfo::interfaces()` and 236 claims the interface of that *number*; on a device whose interface numbers have gaps another interface is claimed. 242-256 keep the last bulk endpoints over all alternate settings, though no setting is selected, and the least packet size over all bulk OUT endpoints. Devices built with the crate's own `WireStorage` are not affected.
* **C80** `test_utils.rs` 134-143 and 160-169 look at the stopper before the `select!`, "this way recv can't accidentally win the select". A receive that is already waiting when `cause_fatal_error` is called is past the look, and `select!` picks at random among ready branches: with a message there too it may win. At most one message in each direction gets through.
* **C81** `example/firmware/src/bin/comms-02.rs` 249-256: if the reply to a start fails, the handler returns without clearing `STOP`. A stop that came while the reply was on its way (the accelerometer is locked, so it was answered `true` and set `STOP`) stays, and the next stream is answered, reads `STOP` and ends without a sample. Line 258: the sensor is set to `Range::G8` whatever `rqst.range` says.
* **C82** `host_client/mod.rs` 256-266: the collecting task gives up after 100 ms without a message, also before the first. The time starts with the task, before the request is even sent. A device that takes longer anywhere (slow link, long queue of other requests) gets `LostData` although every message and the totals arrive. In the other direction there is no overall limit: every schema message received restarts the time.
* **C83** (observation, no violation) `host_client/util.rs` 290-303: the wait for room happens while the subscription table is locked and before any later message is looked at, so one slow subscriber delays the replies of all calls and every `subscribe_*`, by the timeout for each of its messages; the documentation of `subscriber_timeout_if_full` does not say so.
* **C84** (limits of the claim) `host_client/raw_nusb.rs` 430-433 and `embassy_usb_v0_4.rs` 594-626: nothing keeps a device from sending messages of 1024 bytes or more, which the host takes apart (C46); `c84_long_reply_forges` is a run, without any failure, in which the tail of one reply is returned as the reply to another call whose handler has not replied. A request exactly as long as the receive buffer is dropped, and its call waits for ever (`c84_full_buffer_hangs`).
* **C87** `example/firmware/src/ws2812.rs` 108-110: `dma_push(..).await` ends when the last words are in the FIFO, which still holds eight words (240 µs of bits), so the wait of 55 µs is over before the line has been quiet for 50 µs (`c87_returns`). A `write` that follows at once, as when two requests `led/set_one` are already in the receive buffer, appends its bits to those of the one before; the strip passes them on behind its last LED, and the second call is lost until the next (`c87_lost`, `c87_not_shown`).
* **C92** (limits of the claim) `host_client/util.rs` 23-27, 309-320: dropping a `Subscription` or `MultiSubscription` leaves its entry in the table, with the sending end of the channel, until a frame of the topic arrives. A client that subscribes to ever new topics which never send keeps an entry for each (`c92_entries_stay`).
* **C93** `example/workbook-host/src/bin/comms-02.rs` 38-50: a mistyped number in `rgb` or `rgball` panics (`panic!()`), where all other commands complain and go on; and a position that no LED has makes `set_rgb_single` return an error, which line 43 unwraps: the program panics though the link works (`c93_mistakes_false`).
* **C93** (limits of the claim) comms-02.rs 76-79: `accel listen` looks at the clock only between messages. If the board sends none, it waits for ever, beyond the time asked for, and the accelerometer is not stopped (`c93_listen_waits`). Lines 20-23: at the end of the input `read_line` returns an empty line each time, and the program prints complaints for ever (`c93_end_of_input`).
* **C95** `example/workbook-host/src/bin/logging.rs` 15 loops with `while let Ok(msg) = logsub.recv().await`. A `MultiSubscription` also returns an error when it has lagged (`MultiSubRxError::Lagged`), so a host that is more than 64 messages behind stops for good and prints "Device disconnected" although the device is there and the newest 64 messages wait to be read (`c95_stops_false`).
* **C96** `example/workbook-host/src/bin/comms-01.rs` 26 unwraps the result of `ping` inside a `select!` whose other branch is `wait_closed`. When the connection is lost during a ping both branches are ready; if `run` is polled first (`select!` picks at random) the program panics on `HostErr::Closed` instead of printing "Client is closed, exiting..." (`c96_panics_false`). Also, `client.ping` uses the standard `PingEndpoint`, not the one of workbook-icd of the same name, so the firmware's `ping_handler` (comms-01.rs 118-121) does not answer it: the dispatcher does.
* **C97** `init_poststation` says that it "must only be called once", as `init` does, but where `init` can be called once for each `WireStorage`, `init_poststation` can be called once in a program: its string handler is the static `HDLR` (embassy_usb_v0_4.rs 22, 124), so setting up a second device panics (`c97_no_panic_false`). With two handlers the shared `STINDX` (21, 148) would be wrong for one of them as soon as the indices differ.
* **C98** The book says that a changed request or response changes the key, so that data are never misread (comms-postcard-rpc.md). The key length of a dispatcher is chosen so that the board's own keys differ (dispatch_macro.rs, `min_key_needed`), and a longer key received is shortened before it is compared. So the full key of an endpoint of another version can be taken for that of an endpoint the board has: with one-byte keys the chance is one in 256 for each pair (`c98_not_misread_false`), and the reply can be taken for the one awaited (`c98_misread_reply`). And an endpoint of which only the response has changed has the request key of the old one (a key is made of the path and one of the types), so the board runs the handler, and the caller waits for ever, as the reply has another key than the one awaited (`c98_answered_false`).
* **C100** `send_resp_raw` refuses a sequence number only while another call waits with it. Giving a call up (dropping its future) frees the number at once though its request may be on its way: a raw call that takes the number gets the reply to the call given up (`c100_replies_false`). Typed calls take numbers from a counter, so they can be hit only by raw calls or after 2³² calls.
* **C101** `example/workbook-host/src/bin/comms-02.rs` 77 unwraps `sub.recv()`. The subscription has room for eight readings; if nine arrive before the program looks, `recv` returns `Lagged`, and the program dies without having stopped the accelerometer although nothing is wrong with the connection (`c101_panics_false`). After `accel stop` the task that has been told to stop may publish one more reading, since it looks at the flag only at its next turn of the loop; an `accel listen` with another interval and range that has subscribed meanwhile prints this reading as one of its own (`c101_own_false`).
* **C102** Nothing tells a USB device that another host process has opened it. A request the old process left in the endpoint is handled as one of the new process, whose sequence numbers start from 0 again, so its reply is returned by the new process's call with that number (`c102_replies_false`); if the old process ended between the packets of a message, the new one's first request is taken for the end of it, and its call waits for ever (`c102_answered_false`).
* **C104** `c104_answered_false`, `c104_swallows`: over WebUSB a call whose request fills its last packet waits for ever (webusb.rs
  157-164 sends no empty packet); if another request follows, the device reads the two as one message and the other call waits for ever.
  In general the server takes as many messages from a page as it sends requests that leave their last packet unfilled
  (`c104_taken_count`), and none while all requests fill it (`c104_whole_unheard`).
* **C107, C108** Tasks a server has spawned for a client live on when the next one connects, and replies are matched by response key and
  sequence number only, which every client counts from 0. So a call of the next client can return before the server has received
  anything it published or asked (`c107_stale_unheard`), and a call of an endpoint the server does not even know can return a reply, if
  the client is of another version in which an endpoint keeps its response and changes its request (`c108_stale_reply`).
* **C109** `c109_reload_swallows`: loading the page again does not help a call of C104 that waits for ever: the device takes the first
  request of the new page for the end of the old page's (webusb.rs 157-164, embassy_usb_v0_4.rs 592-612), and the new page's call returns
  an error for the two as one message.

## What is modelled and what is not

| file | modelled | not modelled |
|---|---|---|
| `header.rs` | all of `VarKey`, `VarKeyKind`, `VarSeq`, `VarSeqKind`, `VarHeader` | `Debug`/`Display`, the `Schema` impls |
| `lib.rs` | `Key1`, `Key2`, `Key4` conversions, `DeviceMap` as data | traits without code, key hashing (external) |
| `standard_icd.rs` | the message types and tables | `Debug` |
| `accumulator.rs` | `CobsAccumulator::feed` and `extend_unchecked` | the borrowed variant's lifetimes |
| `uniques.rs` | all `const fn`s | their macros' array-length plumbing |
| `macros.rs` | `endpoints!`, `topics!` in both `omit_std` forms with `cfg` switches, `concat_arrays!` | `endpoint!`, `topic!` marker types |
| `server/mod.rs` | `Sender`, `Server::run`, `min_key_needed`, error kinds | `WireTx`/`WireRx` traits, `Debug` |
| `server/dispatch_macro.rs` | the dispatcher, its sizer, schema dump | token-level expansion |
| `server/impls/embassy_usb_v0_4.rs` | the whole `WireTx` and `WireRx` implementations, timeouts; the interface and endpoints declared | buffer sizes, Microsoft descriptors (the set-up is C97) |
| `server/impls/embassy_usb_v0_3.rs` | through the model of v0_4: the text is the same but for the fixed allowance of 2 ms (C73 with nothing set) | |
| `server/impls/test_channels.rs` | sender, receiver, stopper; error kinds | task spawning |
| `host_client/mod.rs` | calls, publications, subscriptions, closing, schema report | `Debug`, serde of bodies (parameters) |
| `host_client/util.rs` | both workers, subscription table | task spawning |
| `host_client/raw_nusb.rs` | receive and transmit, packet-size detection; finding the device (C79) | the operating system's device list (parameter) |
| `host_client/webusb.rs` | `send`, `receive`, errors; device selection (C79); whole system (`Model/WebSys`, C104) | JavaScript glue |
| `host_client/serial.rs` | framing, receive loop, read errors | port opening |
| `host_client/test_channels.rs` | the link as an order-preserving queue, of bounded capacity in C76 | |
| `test_utils.rs` | all | tokio's channels (described in the model) |
| `example/firmware/src/bin/comms-02.rs` | 194-292 | hardware set-up and drivers 1-193 |
| `host_client/mod.rs` | 251-321 | as a whole with time (`Model/Query`): tokio's cooperative budget |
| `host_client/util.rs` | 281-305 | with time (`Model/Stall`); tokio's rounding of sleeps to milliseconds and its cooperative budget are not modelled |
| `host_client/raw_nusb.rs`, `server/impls/embassy_usb_v0_4.rs` | 346-511, 240-628 | also packet by packet, joined by a cable (`Model/UsbSys`); no stalls, disconnection in `Model/UsbNext` (C103), packets of 64 bytes |
| `standard_icd.rs`, `lib.rs` | 20-125, 417-424 | bytes of the standard messages (`Model/Postcard`); postcard's wire format as documented; schemas of types remain abstract |
| `example/firmware/src/ws2812.rs` (and the copy in `firmware-eusb-v0_3`) | all | `Model/Ws2812`; the state machine's semantics are those of the RP2040's documentation |
| `example/workbook-icd/src/lib.rs` | all | `Model/Workbook` |
| `example/workbook-host/src/client.rs` | all but connecting (28-58) | `Model/Workbook` |
| `example/firmware/src/bin/comms-02.rs` | 50-121 (the application), handlers as in `Model/Example` | `Model/Workbook` |
| `example/workbook-host/src/bin/comms-02.rs` | all (printed text as data) | `Model/Repl` |
| `example/workbook-host/src/lib.rs` | `read_line`, taken to succeed | `Model/Repl` |
| `example/workbook-host/src/bin/logging.rs` | all (printed text as data) | `Model/Logging` |
| `example/firmware/src/bin/logging.rs` | 52-76 (the application), 100-118 (the task) | `Model/Logging`; hardware set-up is not modelled |
| `example/workbook-host/src/bin/comms-01.rs` | all (printed text as data) | `Model/Pings` |
| `example/firmware/src/bin/comms-01.rs` | 52-75 (the application), 118-121 | `Model/Pings`; hardware set-up is not modelled |
| `server/impls/embassy_usb_v0_4.rs` 19-45, 75-230 | set-up, with `static_cell` and the builder of `embassy-usb` as external | `Model/Setup`; buffer sizes and Microsoft descriptors are not modelled |
| `example/firmware/src/bin/hello-0{1,2,3}.rs`, `uhoh-00.rs`, `example/firmware/src/lib.rs` | all tasks and drivers; set-up of pins and interrupts is external | `Model/Hello` |
| `example/firmware/src/bin/minimal.rs` | 52-73 (the application) | `Model/Minimal`; hardware set-up is not modelled |
| `example/firmware-eusb-v0_3/src/main.rs` | as `comms-02.rs` of the other firmware, from which it differs in the version of the transport and in not setting the allowance per frame | hardware set-up |

## Replaying the repository's tests

`Verif/Conform/Units.lean` evaluates, in the kernel, every assertion of the unit tests of `postcard-rpc/src` (`header.rs`
`wire_format` and `var_seq_equality`, `server/mod.rs` `min_test_*`, `macros.rs` `concats`, `eps` and `tps`, `uniques.rs`
`subpar_arrs` and `uniqlo`) on the model.  `Verif/Conform/Tests.lean` does so for the integration tests `basic.rs` (`smoke`,
`end_to_end`, `end_to_end_force8`, `end_to_end_stoppable`) and `subscrobble.rs` (both tests), on runs of the server loop and of
the composed system.  Not replayed: `device_map` (prints only) and `end_to_end_schema` (C20 and C82 are about it).  They are
evidence that the model is of this code, and no part of any claim.

## Trusted base

* Lean 4.33.0's kernel. No axioms beyond `propext`, `Classical.choice`, `Quot.sound`; the per-theorem axiom
  list is at the end of this file.
* The hand translation of Rust into the model; every definition cites its source lines and states its
  simplifications.
* External crates appear as parameters or as small modelled contracts: `postcard` serialization,
  `cobs` 0.2 encode/decode, `postcard_schema` key hashing, `maitake` `WaitMap`/`WaitQueue`, `tokio`
  `mpsc`/`broadcast`/`select!`, `embassy-usb` endpoints, `nusb` queues. The contract assumed is stated where the
  parameter is introduced.
* Time is modelled where a claim is about it: the timer of USB sends (C73), the pauses of the schema report (C82), the wait on a full subscription (C83), the LED signal (C87), `accel listen` (C93). Elsewhere a timeout may or may not fire at any point where it can.

## Axioms per theorem

Obtained with `#print axioms`; `P` is `propext`, `C` is `Classical.choice`, `Q` is `Quot.sound`.

| theorem | axioms |
|---|---|
| `c01_header_round_trip` | P Q |
| `c02_header_canonical` | P C Q |
| `c02_header_prefix_free` | P Q |
| `c03_header_decode_accepts_iff` | P C Q |
| `c03_header_decode_no_panic` | P Q |
| `c04_header_layout` | P Q |
| `c05_header_write_to_slice` | P Q |
| `c06_shrink_is_fold` | P Q |
| `c06_shrink_length` | P Q |
| `c06_shrink_steps` | P Q |
| `c06_try_from` | P Q |
| `c07_key_eq_iff` | P C Q |
| `c07_key_eq_not_trans` | P Q |
| `c07_key_eq_refl_symm` | P C Q |
| `c07_key_eq_shrink` | P C Q |
| `c07_key_eq_trans` | P C Q |
| `c08_seq_eq_iff` | P Q |
| `c08_seq_into` | P C Q |
| `c08_seq_resize` | P Q |
| `c08_seq_widen` | P Q |
| `c09_distinct_mono` | P Q |
| `c09_min_key_least` | P C Q |
| `c09_min_key_panics_iff` | P C Q |
| `c100_answered` | P C Q |
| `c100_error_from` | P C Q |
| `c100_kept_error` | P C Q |
| `c100_kept_reply_partial` | P C Q |
| `c100_own_reply_partial` | P C Q |
| `c100_refused` | P C Q |
| `c100_replies_false` | P C Q |
| `c100_reply_from` | P C Q |
| `c100_report_calls` | P C Q |
| `c100_second_reply` | P Q |
| `c100_usb_answered` | P C Q |
| `c100_usb_error_from` | P C Q |
| `c100_usb_own_reply_partial` | P C Q |
| `c100_usb_reply_from` | P C Q |
| `c101_complete` | P C Q |
| `c101_own_false` | P C Q |
| `c101_own_partial` | P C Q |
| `c101_panics_false` | P C Q |
| `c101_panics_partial` | P C Q |
| `c101_sensor` | P Q |
| `c101_shown` | P C Q |
| `c101_turn` | P C Q |
| `c102_answered_false` | P C Q |
| `c102_answered_partial` | P C Q |
| `c102_context_kept` | P C Q |
| `c102_errors_partial` | P C Q |
| `c102_own_replies_partial` | P C Q |
| `c102_replies_false` | P C Q |
| `c102_replies_partial` | P C Q |
| `c103_answered` | P C Q |
| `c103_context_kept` | P C Q |
| `c103_errors` | P C Q |
| `c103_own_replies` | P C Q |
| `c103_replies` | P C Q |
| `c104_answered_false` | P C Q |
| `c104_answered_partial` | P C Q |
| `c104_as_cable_partial` | P C Q |
| `c104_finite_partial` | P C Q |
| `c104_host_packets` | P Q |
| `c104_swallows` | P Q |
| `c104_taken_count` | P C Q |
| `c104_transfers` | P |
| `c104_typed_error_partial` | P C Q |
| `c104_typed_reply_partial` | P C Q |
| `c104_whole_unheard` | P Q |
| `c105_answered` | P C Q |
| `c105_comes_to_rest` | P C Q |
| `c105_minimal` | P C Q |
| `c105_refused` | P C Q |
| `c106_before_reply` | P C Q |
| `c106_comes_through` | P C Q |
| `c106_complete` | P C Q |
| `c106_none_left_out` | P C Q |
| `c106_only_published` | P C Q |
| `c106_too_large_unheard` | P Q |
| `c106_usb_before_reply` | P C Q |
| `c106_usb_comes_through` | P C Q |
| `c106_usb_complete` | P C Q |
| `c106_usb_none_left_out` | P C Q |
| `c106_usb_only_published` | P C Q |
| `c107_applied` | P C Q |
| `c107_once` | P C Q |
| `c107_one_history` | P C Q |
| `c107_published` | P C Q |
| `c107_real_time` | P C Q |
| `c107_stale_unheard` | P Q |
| `c107_usb_applied` | P C Q |
| `c107_usb_once` | P C Q |
| `c107_usb_one_history` | P C Q |
| `c107_usb_published` | P C Q |
| `c107_usb_real_time` | P C Q |
| `c108_answered` | P C Q |
| `c108_errors` | P C Q |
| `c108_not_misread` | P C Q |
| `c108_replies` | P C Q |
| `c108_stale_reply` | P Q |
| `c108_unknown_no_effect` | P C Q |
| `c108_unknown_no_reply` | P C Q |
| `c108_usb_answered` | P C Q |
| `c108_usb_errors` | P C Q |
| `c108_usb_not_misread` | P C Q |
| `c108_usb_replies` | P C Q |
| `c108_usb_unknown_no_effect` | P C Q |
| `c108_usb_unknown_no_reply` | P C Q |
| `c109_context_kept` | P C Q |
| `c109_errors` | P C Q |
| `c109_own_replies` | P C Q |
| `c109_page_answered` | P C Q |
| `c109_process_answered` | P C Q |
| `c109_reload_swallows` | P Q |
| `c109_replies` | P C Q |
| `c109_typed_reply` | P C Q |
| `c10_dispatcher_key_length` | P C Q |
| `c10_dispatcher_key_length_least` | P C Q |
| `c10_dispatcher_refused_iff` | P C Q |
| `c10_kind_of_sz` | P C Q |
| `c11_request_routing_false` | P C Q |
| `c11_request_routing_partial` | P C Q |
| `c11_topic_routing_partial` | P C Q |
| `c12_long_key_not_refused` | P C Q |
| `c12_short_key_refused` | P Q |
| `c13_unknown_key_false` | P Q |
| `c13_unknown_key_only` | P C Q |
| `c13_unknown_key_partial` | P Q |
| `c13_unknown_key_same_length_partial` | P Q |
| `c14_one_reply` | P Q |
| `c14_ping` | P Q |
| `c14_topic_silent` | P Q |
| `c15_undecodable_ping` | P Q |
| `c15_undecodable_request` | P Q |
| `c15_undecodable_topic` | P Q |
| `c16_spawn` | P Q |
| `c17_panics_iff` | P C Q |
| `c17_still_running` | P C Q |
| `c17_stops_on_rx` | P C Q |
| `c17_stops_on_tx` | P C Q |
| `c18_ping_reply_failure` | P C Q |
| `c18_reply_failure_false` | P C Q |
| `c18_reply_failure_partial` | P C Q |
| `c19_schema_dump` | P C Q |
| `c19_schema_dump_overflow` | P C Q |
| `c20_loss_refused` | P Q |
| `c20_lossless_report` | P C Q |
| `c20_report_exact_false` | P |
| `c20_report_exact_partial` | P Q |
| `c20_type_loss_unnoticed` | P |
| `c20_types_right` | P Q |
| `c20_with_device` | P C Q |
| `c21_unique_types_sound` | P C Q |
| `c22_unique_types_complete_false` | P C Q |
| `c22_unique_types_complete_partial` | P C Q |
| `c22_unique_types_partial` | P C Q |
| `c23_unique_types_no_panic` | P C Q |
| `c24_schema_eq_iff` | P C Q |
| `c25_concat_arrays` | P Q |
| `c25_merge_types` | P C Q |
| `c25_merge_unique_lists` | P C Q |
| `c26_cobs_chunking` | P C Q |
| `c27_cobs_noise_confined` | P C Q |
| `c27_cobs_resync` | P C Q |
| `c28_cobs_feed_safe` | P C Q |
| `c28_cobs_loop_terminates` | P C Q |
| `c28_cobs_progress_false` | P Q |
| `c28_cobs_progress_partial` | P C Q |
| `c28_cobs_zero_capacity_stuck` | P Q |
| `c29_serial_delivery_false` | P C Q |
| `c29_serial_delivery_partial` | P C Q |
| `c29_serial_long_frame_spurious` | P Q |
| `c29_serial_short_frame_lost` | P C Q |
| `c30_usb_send_framing` | P C Q |
| `c30_usb_send_succeeds` | P Q |
| `c31_usb_interrupted_sends` | P C Q |
| `c31_usb_next_send_intact` | P C Q |
| `c32_usb_receive_exact_fit_refused` | P Q |
| `c32_usb_receive_false` | P |
| `c32_usb_receive_fitting_partial` | P Q |
| `c32_usb_receive_misaligned` | P |
| `c32_usb_receive_partial` | P Q |
| `c33_usb_timeout_32bit_partial` | P C Q |
| `c33_usb_timeout_clamped` | P C Q |
| `c33_usb_timeout_default_partial` | P C Q |
| `c33_usb_timeout_overflow` | P Q |
| `c33_usb_timeout_partial` | P C Q |
| `c34_log_fmt_display_error` | P C Q |
| `c34_log_fmt_false` | P C Q |
| `c34_log_fmt_length_panic` | P C Q |
| `c34_log_fmt_long_panics` | P C Q |
| `c34_log_fmt_panics_iff` | P C Q |
| `c34_log_fmt_partial` | P C Q |
| `c34_log_fmt_short_text_partial` | P C Q |
| `c35_sequence_numbers_unique` | P C Q |
| `c35_typed_calls_have_seq4` | P Q |
| `c36_completed_by_matching_frame` | P C Q |
| `c36_completed_by_own_response` | P C Q |
| `c36_completes_once` | P Q |
| `c36_one_call_per_frame` | P Q |
| `c37_answer_is_kept` | P Q |
| `c37_no_lost_response` | P C Q |
| `c37_response_reaches_its_call` | P C Q |
| `c37_sequence_condition` | P C Q |
| `c37_unclaimed_frame_offered` | P C Q |
| `c38_calls_are_released` | P Q |
| `c38_closing_false` | P Q |
| `c38_failures_close` | P Q |
| `c38_multi_subscription_drains` | P Q |
| `c38_no_late_response_partial` | P C Q |
| `c38_no_late_traffic_partial` | P Q |
| `c38_no_late_transmission` | P Q |
| `c38_no_silent_worker_exit` | P Q |
| `c38_publish_fails` | P Q |
| `c38_stays_closed` | P Q |
| `c38_subscription_drains` | P Q |
| `c38_workers_end` | P Q |
| `c39_at_most_one` | P Q |
| `c39_exclusive_refused_iff_live` | P Q |
| `c39_only_registered_receive` | P Q |
| `c39_replace_ends_previous` | P Q |
| `c40_all_delivered_false` | P Q |
| `c40_all_delivered_partial` | P C Q |
| `c40_arrivals` | P Q |
| `c40_delivery_order` | P C Q |
| `c40_multi_all_accounted_partial` | P C Q |
| `c40_multi_delivery_order` | P C Q |
| `c40_prefix_delivered_partial` | P C Q |
| `c40_starts_now` | P Q |
| `c41_no_subscription_outlives` | P Q |
| `c41_racing_subscription_ends` | P Q |
| `c42_adapts_key_length_false` | P Q |
| `c42_adapts_key_length_partial` | P Q |
| `c42_length_of_the_server` | P C Q |
| `c42_length_was_learned` | P Q |
| `c42_only_these` | P Q |
| `c42_publication_key` | P Q |
| `c42_request_is_routed` | P C Q |
| `c42_request_key` | P Q |
| `c42_typed_request_full_key` | P Q |
| `c43_configured_width_false` | P Q |
| `c43_configured_width_partial` | P Q |
| `c44_collision_blocks_calls` | P C Q |
| `c44_declared_error_key_suffices` | P C Q |
| `c44_errors_distinguishable_false` | P C Q |
| `c44_errors_distinguishable_partial` | P C Q |
| `c45_end_to_end_errors_partial` | P C Q |
| `c45_end_to_end_false` | P C Q |
| `c45_end_to_end_partial` | P C Q |
| `c45_publication_fails_call` | P Q |
| `c45_wrapped` | P C Q |
| `c46_every_sequence` | P C Q |
| `c46_full_while_waiting` | P Q |
| `c46_gives_up` | P Q |
| `c46_in_flight` | P C Q |
| `c46_in_flight_history` | P C Q |
| `c46_no_loss_false` | P Q |
| `c46_no_loss_partial` | P Q |
| `c46_tolerates` | P Q |
| `c46_uncleared_stall` | P Q |
| `c47_device_receives` | P C Q |
| `c47_packet_size_detected` | P Q |
| `c47_usb_transmit` | P C Q |
| `c47_usb_transmit_unknown_size` | P C Q |
| `c48_accepted_only_grows` | P Q |
| `c48_call_submits_once` | P Q |
| `c48_nothing_after_error` | P Q |
| `c48_publication_returns_once` | P Q |
| `c48_submission_order` | P Q |
| `c48_success_means_accepted` | P Q |
| `c49_usb_link_blocks` | P C Q |
| `c49_usb_link_false` | P C Q |
| `c49_usb_link_interrupted` | P C Q |
| `c49_usb_link_partial` | P C Q |
| `c50_webusb_joins` | P Q |
| `c50_webusb_transmit_false` | P Q |
| `c50_webusb_transmit_partial` | P Q |
| `c51_endpoints_macro` | P C Q |
| `c51_topics_macro` | P C Q |
| `c52_builtin_reached` | P C Q |
| `c52_outgoing_separate` | P C Q |
| `c52_user_endpoint_routed` | P C Q |
| `c52_user_topic_routed` | P C Q |
| `c53_usb_messages` | P C Q |
| `c53_usb_panics_iff` | P C Q |
| `c54_log_gaps` | P C Q |
| `c55_serial_end_false` | P C Q |
| `c55_serial_eof_waits` | P C Q |
| `c55_serial_read_error_partial` | P C Q |
| `c56_webusb_babble` | P C Q |
| `c56_webusb_blocks` | P C Q |
| `c56_webusb_first_error` | P C Q |
| `c56_webusb_outcomes` | P C Q |
| `c56_webusb_receive_false` | P C Q |
| `c56_webusb_receive_partial` | P C Q |
| `c57_webusb_send_false` | none |
| `c57_webusb_send_iff` | P Q |
| `c57_webusb_send_partial` | none |
| `c58_report_given_false` | P C Q |
| `c58_report_given_partial` | P C Q |
| `c59_channel_drained` | P C Q |
| `c59_channel_faithful` | P C Q |
| `c59_closed_is_final` | P C Q |
| `c60_log_distinct` | P Q |
| `c60_log_numbers` | P Q |
| `c60_log_order_false` | P Q |
| `c60_log_order_partial` | P C Q |
| `c61_server_ends` | P C Q |
| `c61_stop_false` | P Q |
| `c61_stop_partial` | P C Q |
| `c62_depth_honoured_false` | P Q |
| `c62_depth_honoured_partial` | P C Q |
| `c63_end_is_seen` | P Q |
| `c63_ends_for_a_reason_false` | P Q |
| `c63_ends_for_a_reason_partial` | P C Q |
| `c63_multi_ends_for_a_reason_false` | P Q |
| `c63_multi_ends_for_a_reason_partial` | P C Q |
| `c64_typed_multi_receive` | P C Q |
| `c64_typed_receive` | P C Q |
| `c65_close_discards` | P Q |
| `c65_dropped_client_drains` | P Q |
| `c65_dropped_client_ends` | P Q |
| `c65_dropping_ends` | P Q |
| `c66_comes_to_rest` | P C Q |
| `c66_idle_sent_everything` | P Q |
| `c66_nothing_stuck` | P C Q |
| `c66_work_is_bounded` | P Q |
| `c67_at_rest_answered` | P C Q |
| `c67_every_call_answered` | P C Q |
| `c67_failed_send_hangs` | P C Q |
| `c67_finite` | P C Q |
| `c67_oversized_request_hangs` | P C Q |
| `c67_stuck_is_at_rest` | P C Q |
| `c67_subscription_takes_answer` | P C Q |
| `c68_usb_send_result` | P C Q |
| `c69_context` | P C Q |
| `c69_context_threads` | P C Q |
| `c70_queue_bounded` | P Q |
| `c70_send_makes_room` | P Q |
| `c70_waits_for_room` | P C Q |
| `c71_bad_bytes_ignored` | P C Q |
| `c71_bad_response_cause` | P C Q |
| `c71_closed_for_a_reason` | P Q |
| `c71_closed_results` | P Q |
| `c71_typed_calls_not_refused` | P C Q |
| `c72_host_receives` | P C Q |
| `c72_never_misread` | P C Q |
| `c72_round_trip` | P C Q |
| `c72_server_log` | P C Q |
| `c73_usb_prompt_host_false` | P C Q |
| `c73_usb_prompt_host_partial` | P C Q |
| `c73_usb_send_in_time` | P C Q |
| `c73_usb_third_of_allowance` | P C Q |
| `c74_cut_header_hangs` | P C Q |
| `c74_error_begins` | P C Q |
| `c74_failed_send_arrives` | P Q |
| `c74_raw_gets_a_beginning` | P Q |
| `c74_reply_begins` | P C Q |
| `c74_typed_error` | P C Q |
| `c74_typed_reply` | P C Q |
| `c74_typed_reply_later` | P C Q |
| `c75_long_keys_accepted` | P C Q |
| `c75_long_keys_apart` | P C Q |
| `c75_long_never_refused` | P C Q |
| `c75_short_keys_cross` | P Q |
| `c75_short_locks_out` | P C Q |
| `c75_short_second_call_refused` | P Q |
| `c76_bounded_runs` | P C Q |
| `c76_every_call_answered` | P C Q |
| `c76_no_deadlock` | P C Q |
| `c76_replies` | P C Q |
| `c77_context_kept` | P C Q |
| `c77_errors` | P C Q |
| `c77_every_call_answered` | P C Q |
| `c77_no_spawned_partial` | P C Q |
| `c77_own_replies_false` | P C Q |
| `c77_own_replies_partial` | P C Q |
| `c77_replies` | P C Q |
| `c78_new_frame_swallowed` | P C Q |
| `c78_replies` | P C Q |
| `c78_replies_false` | P Q |
| `c78_replies_partial` | P C Q |
| `c78_requests` | P C Q |
| `c78_requests_false` | P C Q |
| `c78_requests_partial` | P C Q |
| `c79_alternate_setting_false` | none |
| `c79_by_class` | none |
| `c79_chosen` | P C Q |
| `c79_connect_fails` | P C Q |
| `c79_connected` | P C Q |
| `c79_endpoints_false` | P |
| `c79_endpoints_partial` | P C Q |
| `c79_interface_false` | none |
| `c79_interface_partial` | P C Q |
| `c79_own_devices` | P C Q |
| `c79_webusb` | P C Q |
| `c80_call_answered` | P C Q |
| `c80_client_is_a_client` | P Q |
| `c80_client_receives` | P Q |
| `c80_ends_for_a_reason` | P Q |
| `c80_failure_does_not_stop_traffic` | P Q |
| `c80_failure_ends_client` | P C Q |
| `c80_failure_stops_traffic_partial` | P C Q |
| `c80_rest` | P C Q |
| `c80_send_refused` | P Q |
| `c80_server_receives` | P C Q |
| `c80_setup` | P |
| `c80_work_is_bounded` | P Q |
| `c81_all_answer` | P Q |
| `c81_led_answer` | P Q |
| `c81_leds` | P Q |
| `c81_one_stream` | P Q |
| `c81_ping_id` | P Q |
| `c81_range_ignored` | P Q |
| `c81_reply_to_start` | P Q |
| `c81_sensor_values` | P Q |
| `c81_stop_answer` | P Q |
| `c81_stop_stops` | P Q |
| `c81_stream_ends_by_itself` | P Q |
| `c81_stream_goes_on_partial` | P Q |
| `c81_streams` | P Q |
| `c82_asks` | P Q |
| `c82_ends` | P Q |
| `c82_gathers_partial` | P C Q |
| `c82_no_limit` | P Q |
| `c82_report_false` | P Q |
| `c82_report_partial` | P C Q |
| `c82_silence` | P C Q |
| `c82_waits` | P |
| `c83_close` | P Q |
| `c83_dropped` | P Q |
| `c83_goes_on` | P Q |
| `c83_lock` | P Q |
| `c83_one_message` | P Q |
| `c83_queue` | P Q |
| `c83_reached` | P Q |
| `c83_room` | P Q |
| `c83_why` | P Q |
| `c83_zero` | P Q |
| `c84_device_drains` | P |
| `c84_device_reads` | P |
| `c84_device_writes` | P Q |
| `c84_every_call_answered` | P C Q |
| `c84_finite` | P C Q |
| `c84_full_buffer_hangs` | P C Q |
| `c84_host_packets` | P Q |
| `c84_long_reply_forges` | P Q |
| `c84_no_deadlock` | P C Q |
| `c84_refines` | P C Q |
| `c84_typed_error` | P C Q |
| `c84_typed_error_later` | P C Q |
| `c84_typed_reply` | P C Q |
| `c84_typed_reply_later` | P C Q |
| `c85_answered` | P C Q |
| `c85_error` | P C Q |
| `c85_error_reported` | P C Q |
| `c85_item` | P C Q |
| `c85_layout` | P C Q |
| `c85_log_text` | P Q |
| `c85_number` | P C Q |
| `c85_padding_bound` | none |
| `c85_ping_answer` | P C Q |
| `c85_sizes` | P C Q |
| `c85_totals` | P C Q |
| `c85_usb_error_reported` | P C Q |
| `c85_usb_ping_answer` | P C Q |
| `c86_answered` | P C Q |
| `c86_every_request` | P C Q |
| `c86_no_room` | P C Q |
| `c86_round_trip` | P C Q |
| `c87_cycle` | none |
| `c87_lost` | P C Q |
| `c87_not_shown` | P C Q |
| `c87_returns` | P C Q |
| `c87_shown_partial` | P C Q |
| `c88_applied` | P C Q |
| `c88_contexts` | P C Q |
| `c88_once` | P C Q |
| `c88_real_time` | P C Q |
| `c88_usb_applied` | P C Q |
| `c88_usb_contexts` | P C Q |
| `c88_usb_once` | P C Q |
| `c88_usb_real_time` | P C Q |
| `c89_board` | P C Q |
| `c89_comes_to_rest` | P C Q |
| `c89_made` | P C Q |
| `c89_returns` | P C Q |
| `c90_error_cause` | P C Q |
| `c90_error_told` | P C Q |
| `c90_untouched` | P Q |
| `c90_usb_error_told` | P C Q |
| `c91_default_report` | P C Q |
| `c91_full_report` | P C Q |
| `c91_postcard` | P C Q |
| `c91_report_exact` | P C Q |
| `c91_types` | P C Q |
| `c91_usb_full_report` | P C Q |
| `c91_usb_report_exact` | P C Q |
| `c91_usb_types` | P C Q |
| `c92_calls` | P C Q |
| `c92_entries_stay` | P Q |
| `c92_frame_frees` | P C Q |
| `c92_frames` | P C Q |
| `c92_queues` | P C Q |
| `c92_tables` | P C Q |
| `c93_dialogue` | P C Q |
| `c93_end_of_input` | P C Q |
| `c93_goes_on` | P C Q |
| `c93_lines` | P C Q |
| `c93_listen_time` | P C Q |
| `c93_listen_waits` | P Q |
| `c93_mistakes_false` | P C Q |
| `c93_mistakes_partial` | P C Q |
| `c93_one_at_a_time` | P C Q |
| `c93_panics` | P C Q |
| `c94_complete` | P C Q |
| `c94_complete_multi` | P C Q |
| `c94_no_gaps` | P C Q |
| `c94_no_gaps_multi` | P C Q |
| `c94_order` | P C Q |
| `c94_order_multi` | P C Q |
| `c94_published_before` | P Q |
| `c94_usb` | P C Q |
| `c94_usb_multi` | P C Q |
| `c94_usb_no_gaps` | P C Q |
| `c94_usb_no_gaps_multi` | P C Q |
| `c95_complete` | P C Q |
| `c95_frames` | P C Q |
| `c95_goes_on` | P Q |
| `c95_shown` | P C Q |
| `c95_stops_false` | P C Q |
| `c95_stops_partial` | P C Q |
| `c96_any_board` | P C Q |
| `c96_ends` | P C Q |
| `c96_lost` | P Q |
| `c96_panics_false` | P Q |
| `c96_panics_partial` | P C Q |
| `c96_shown` | P C Q |
| `c96_terminates` | P C Q |
| `c97_built` | P C Q |
| `c97_found` | P C Q |
| `c97_looks` | P C Q |
| `c97_no_panic_false` | P Q |
| `c97_no_panic_partial` | P C Q |
| `c97_panics_iff` | P C Q |
| `c98_answered_false` | P C Q |
| `c98_answered_partial` | P C Q |
| `c98_declared` | P C Q |
| `c98_errors` | P C Q |
| `c98_misread_reply` | P Q |
| `c98_not_misread_false` | P C Q |
| `c98_not_misread_partial` | P C Q |
| `c98_other_topics` | P C Q |
| `c98_replies` | P C Q |
| `c98_unknown_no_effect` | P C Q |
| `c98_usb_answered_partial` | P C Q |
| `c98_usb_errors` | P C Q |
| `c98_usb_not_misread_partial` | P C Q |
| `c98_usb_replies` | P C Q |
| `c98_usb_unknown_no_effect` | P C Q |
| `c99_accelerometer` | P C Q |
| `c99_buttons` | P C Q |
| `c99_fade` | P C Q |
| `c99_goes_round` | P C Q |
| `c99_leds` | P C Q |
| `c99_leds_shown` | P C Q |
| `c99_panics_iff` | P C Q |
| `c99_potentiometer` | P C Q |
| `c99_pressed` | P |
| `c99_unique_id` | P Q |
