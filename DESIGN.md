# Formal model of PDXostc/reliable_multicast in Lean 4: design and trusted base

The first version of this file was committed before the proofs; it is kept current. The state of every claim is in
`MANIFEST.json`, the English properties are in `properties.jsonl`, the experiments with wrong programs in `seeded/LOG.jsonl`.

## 1. Approach

The library is single-threaded C driven by its user: the application calls `rmc_pub_*` / `rmc_sub_*` functions from its event
loop and supplies callbacks. Every C function is a Lean function from a state and the results of the system calls and callbacks
it makes to a return code and a new state, in the monad `Except Fault`. Undefined behaviour (access outside a buffer, use after
free, double free, uninitialised value, failed assertion, endless loop) is a `Fault`, so that "no undefined behaviour" is a
theorem and not an assumption. Machine arithmetic that can wrap is `Nat` arithmetic with explicit `% 2^32`, `% 2^64`.

A *history* is a list of API calls (`PubCtx.Op`, `SubCtx.Op`) with, for each of them, every result the kernel and the callbacks
may give. The contexts keep a log of what an observer outside the library sees (datagrams, bytes written, callbacks, poll
registrations, packets released). A property is a statement about **every** history from the initial state (`Reaches ops c`:
the calls `ops` lead to `c`), about return codes, the log and the few query functions of the API, and never about bounded sizes.

Properties that are **false of the code** have (a) a theorem with a concrete reachable witness that refutes the full statement
(`Cnn_false`, `_oob`, `_hang`, ...), and (b) `_partial` theorems with the strongest restriction we could prove, most of the time
an exact characterisation. `MANIFEST.json` says "partial" for these.

## 2. Layers

| module(s) under `lean/Verif` | models / contains |
|---|---|
| `Basic` | constants, errno values, `Fault` |
| `CircBuf` (+`Lemmas`) | circular_buffer.c: explicit index arithmetic, bounds-checked backing array, uint32 underflow |
| `PtrList` (+`Lemmas`) | rmc_list_template.h at pointer level: a heap of nodes with next/prev/owner |
| `Wire` | packed structs of rmc_protocol.h as bytes |
| `Proto` (+`Lemmas`), `FrameStream`, `BadRead` | rmc_protocol.c: TCP read into the ring, dispatch loop, TCP write; `BadRead`: what follows a read that hits the trim defect |
| `Pub`, `PubSpec`, `PubLog` (+`Lemmas`) | pub.c on a heap with reference counts; `PubSpec` is a specification at the level of sets of (packet, subscriber), proved to be refined |
| `Sub` (+`Lemmas`) | sub.c: received and ready packets, interval list |
| `Conn` (+`Lemmas`) | rmc_connection.c: connection vector, accept/connect/complete/close |
| `PubCtx*`, `PubLang`, `PubBad`, `PubLink`, `Polls` | rmc_pub_context.c, rmc_pub_packet.c, rmc_pub_read.c, rmc_pub_write.c, rmc_pub_timeout.c |
| `SubCtx*`, `SubLang`, `SubLink` | rmc_sub_context.c, rmc_sub_packet.c, rmc_sub_read.c, rmc_sub_write.c, rmc_sub_timeout.c |
| `System`, `SysLemmas`, `SysPub`, `SysSub`, `SysInv` | one publisher ∥ one subscriber ∥ lossy multicast ∥ TCP connection |
| `SysBreak` | the same after the connection has broken off on the publisher side or in the network |
| `Net`, `NetInv`, `NetLive` | any number of publishers ∥ any number of subscribers ∥ one multicast group ∥ the TCP connections between them |
| `Props/*` | the property theorems, one file per area, each with a non-trivial concrete instance of its hypotheses (`example`) |

Lemma modules contain no claims; the model modules contain no proofs that matter to the claims. Specifications used in statements
are small and separate: `CircBuf.bytes` (content of a ring), `PLog.*` (what the log of the publisher core says: queued, sent, owed,
freed), `SubCtxSpec` (what the log of a subscriber says: arrived, delivered, acknowledged, bytes out), `Polls` (what an event loop
sees), `Proto.Lang` (a stream parser without ring), `System` (the network).

## 3. Per-property plan

| id | modelled in | how it is proved |
|---|---|---|
| C01–C03, C06 | `CircBuf` | invariant `WF` on all reachable rings; refinement of a byte queue |
| C04, C05, C07 | `CircBuf` | exact characterisation of when offset reads and trims are right; reachable witnesses of the wrong cases |
| C08, C09 | `PtrList` | representation predicate heap ↔ `List`; every operation commutes with it; sortedness by induction |
| C10 | `Wire` | round trip by arithmetic on little-endian digits |
| C11 | `PubCtx` | arithmetic over the packet limit, for every payload and state |
| C12, C14, C15 | `Proto`, `PubLang`, `SubLang`, `BadRead` | refinement of the ring-level dispatcher to a stream parser, induction on reads; witnesses: trim defect, endless ack interval, uninitialised callback |
| C13 | `Proto` | FIFO invariant on the output ring; witness for the command byte beyond the buffer |
| C16–C24 | `Pub` → `PubSpec` | simulation for every history, inductive invariant of the specification (`Inv`, `LInv`) |
| C25–C32, C53 | `PubCtx` | every call is a sequence of core operations; invariant `Good`; exact descriptions of timeouts; witnesses for the false parts |
| C33–C37 | `Sub`, lifted to `SubCtx` | invariant over all arrival sequences; the record of each connection is the run of its arrivals |
| C38–C44, C54, C55, C57 | `SubCtx` | small-step decomposition of every call (`Micro`/`Steps`), invariants over steps; witnesses |
| C45–C47 | `Conn` | invariant `VInv` over all sequences of vector operations |
| C48 | `PubCtx`, `SubCtx`, `Polls` | invariant: last registration of each descriptor against pending data; witnesses |
| C49, C50 | `System` | inductive invariant of the composition (`SysInv.Inv`): acks and frames in both byte streams, arrivals, what is owed |
| C51 | `System` | false (witness); what holds when everything has come to rest, and that one round of timeout, write and read gets there |
| C52, C55 | `PubCtx`, `SubCtx` | case analysis of every call under the invariants |
| C56 | both contexts | the counters equal what the log says |
| C58 | `PubCtx` | callbacks in the log against connections |
| C59, C60 | `SubCtx`, `PubCtx` | invariant: the read buffer of every live connection holds the beginning of one command; induction on calls against the stream parser |
| C62 | `PubCtx`, `SubCtx` | a table `Code` of what each call returns in each state, proved call by call under the invariants |
| C63 | `PubCtx` | induction on the results of the socket, against the abstract queue |
| C64, C65 | `Log` | bound on the digits written; simulation of the settings by functions of the history, then the characters of one line |
| C66 | `Life` | invariant over all histories of any number of contexts: allocated blocks against handles; the contexts' own invariants |
| C68 | composed system | `SysLive`: a schedule is constructed (announcement, then writes and resends until nothing is held: the number held decreases; then one read per packet) |
| C69 | `OpRes` (the assignments to `*op_res`, beside the functions of the contexts) | by cases on the call, from the exact codes of C62 and the loop over datagrams |
| C70 | `Net` (any number of contexts of both kinds, the links between them come and go) | every link of a reachable network is a reachable two-party system (`NetInv.NInv`), so C49 and C50 carry over; agreement from the order of the ids |
| C71 | `Net` | one publisher settles (`SysLive.settle_all`), then the links are read empty one after the other (`NetLive`); false without the condition on the read buffer (witness) |
| C72 | `System` | invariant `Told` (SysCtl): handed over ++ on its way = put on, kept by every event; false when stale bytes of the ring are read again (witness) |
| C73 | `Net` | the schedule is given in the theorem; each of its six calls is computed from the invariants (`Props/NetJoin`); for the suspended publisher an invariant over all continuations (`C73_mute_false`) |
| C74 | `Net` | C71 applied after the packet was multicast; at rest the ids that arrived are those multicast since acceptance (C75), and C36 says what is delivered of them; false in full (witness) |
| C75 | `System`, `Net` | part of the invariant `SysInv.Inv`: arrivals over TCP and frames in the stream are in `sentTo k` |
| C76 | `SubCtx` | the log has the arguments of every payload_free call; invariant over the small steps: what is available has been made available, what waits has not; false in full (witness) |
| C77 | `Access` | invariants over all calls: node id and table size never change, counts by C56, queue length by C28, the multicast descriptor exists exactly while active; every allocation follows the arrival of the same packet |
| C78 | `SubCtx` | invariant: a live slot leads where its last connection attempt went; the connection of an arrival lasts until it is closed; false in full (witness) |
| C79 | `PubCtx`, `Told` | an event loop per index is folded over the poll calls; invariant over all calls: its state is the descriptor of the slot or socket; false in full (witness) |
| C80 | `Serve` | the loop of the test programs around timeout processing; the number of intervals waiting decreases whenever a call fails, and a call that returns 0 leaves nothing due (induction on the list of publishers); for the publisher from C26, C27; false in full (witness) |
| C81 | `PubCtx` | the loop over the subscribers is split at the failing one; false in full (witness with a packet of the greatest size) |
| C82 | `System` | a measure of the bytes left (held, buffered, in the network) that no event of the system increases, and that a round (specification `Turn`) decreases unless it is 0: an event that leaves the measure leaves its components, so the round's write, timeout or read would have acted on them |
| C83 | `PubCtx` | induction over the calls: a packet put on a connection is in no list of packets held for that subscriber afterwards, and ids are not used twice |
| C84 | `Epoll` | model of the test programs' poll callbacks; if no call interferes with another index's descriptor, the epoll instance is the union of the registrations index by index (snoc induction); those are tied to the connections by an invariant of the small steps, interference is excluded by the descriptor ledger of C61 |
| C85 | `Selftest` | model of the checks of the test subscriber; invariant between each publisher's entry and its signals so far, induction on the signals; the verdict is characterised exactly |
| C86 | `Selftest`, `System` | the publisher's loops are computed (induction), the payloads delivered are a contiguous piece of those queued (C49), C85 judges it; in full false (witness: the first datagram is lost) |
| C87 | `Loop`, `Epoll` | model of the two event loops; each call leaves the connections other than its own alone (frame lemmas for every call the loops make), induction over the batch, C84 ties indices to descriptors; faults by C44, C52, C55 |
| C88 | `TestSub`, `PubCtx`, `SubCtx` | the time to wait is computed from the next timeout (C27, C40); arithmetic, and bounds on the next timeout from the packets held and the announcements logged |
| C89 | `TestSub` | model of the main program of the test subscriber; invariant of its rounds: what is judged is a prefix of the packets made ready, the rest is the ready list; small-step lemmas (the log only grows, the ready list changes only by deliveries and dispatching); C85 and C86 give the verdict |
| C90 | `TestPub` | model of the main program of the test publisher; a small program logic (each part makes a bounded number of calls and ends in a state reached by them, or in a failing call) gives the contents queued after each loop; the counter from C58 summed over the slots; with C89 for the two programs together |
| C91 | `System`, `TestSub`, `TestPub` | from C82, C49, C86 and C89: a contiguous piece of what was queued that contains every id is everything |
| C92 | `CmdLine` | the variables of `main` after any list of options, by induction over it; with C91 and C89 |
| C93 | `NetFair` | every event of the network is one event, or none, of each connection that stays (projection); rounds of the network are turns of C82 for each connection; then C82 and C91 |
| C94 | `Net`, `TestSub`, `Selftest` | of a mixture of packets the signals of each node are those of the packets of its slot; prefix of what the publisher queued (C70), all of it in a fair schedule (C93); verdict by C85; program by C89 |
| C95 | `UnitTests`, `UnitChecks` | the five unit tests transcribed call by call; computed by the kernel with memory and clock as variables; the buffer helpers by C02-C05's lemmas for every well-formed buffer; the other checks: what they accept, by induction on the list |
| C96 | `SysIdle`, `NetIdle` | composed system with both event loops: contrapositive of C84 (registrations), C27 and C40 (timers), then C51; history of the publisher projected out of that of the system; every connection of the network of C70 by its view as a system |
| C97 | `SelfIdle` | C96 for each connection of a test subscriber, C71 (all delivered from the first packet on) and the checks of C94: where everybody sleeps, the test is at its end |
| C98 | `SelfGroup` | induction over the calls of the publisher: connects − disconnects = connected (C58), so no disconnect ⇒ the group at the end is the group gathered (counting); what is sent while connected is in `sentTo`; then C97 with the program of `TestPub` in place of its hypothesis |
| C99 | `SysBreak`, `NetBreak` (model `SysBreak`) | the composed system after the break: publisher free to close/deactivate, the first m of the bytes in flight still arrive; invariant = the safety half of `Sys.Inv` with a tail z of bytes that never arrive; `read_link` for reads, `step_link` for the rest |
| C100 | `Stats` (model `Stats`) | the checks of `Selftest` with the clock; induction over the signals with the invariant of C85 and: the start time kept is that of the publisher's first signal; false (one signal within a microsecond), exact condition |
| C101 | `SysAgain` | two histories of the composed system, the first ending in a break (`Cut`), the second starting from a state the publisher's and the subscriber's further calls lead to; invariant: what was multicast to the connection was multicast since the history began (`Since`); the ids multicast later are larger, by C17 |
| C102 | `SysGap` | with C101: the ids of the first connection are among those multicast before the second was begun, which are 1, 2, …, L; those of the second are larger; what one connection delivers has no gap (C36) |
| C67 | `Dissect` | what is shown of encoded packets and commands; induction on the commands of a segment |
| C61 | `Fds` | a ledger of every descriptor opened and closed by the modelled system calls; invariant: opened = closed + held, preserved by every call |

No property of the list was found not to be expressible in the model. Things a user may also want and that are **not** in the list
because the model cannot express them: timing of the real clock, fairness of the scheduler, behaviour of the kernel's sockets
beyond "some result", memory exhaustion.

## 4. Trusted base

* **Lean's kernel** (4.33.0); `vcheck` replays the compiled modules. No `native_decide`/`bv_decide`, no axioms of our own, no
  unfinished proofs. Concrete witnesses use `decide` and `decide +kernel`: these are evaluated by the kernel itself.
* **Axioms**: every theorem depends at most on `propext`, `Classical.choice` and `Quot.sound` (`#print axioms` on the theorems of
  the manifest; `tools/axioms.sh` prints the list).
* **That the model is the code.** There is no machine-checked link from C to Lean; the model was written by reading /repo function by
  function, each definition cites the lines it models and the simplifications it makes. Section 5 lists them.
* **The statements**: that the theorems say what the English says. They are in `Props/*`, `PubCtxFaults`, `SubCtxFaults`, with
  the specifications named above.

## 5. What is modelled and what is not

Modelled: circular_buffer.c; rmc_list_template.h; pub.c; sub.c; rmc_connection.c; rmc_protocol.c/.h;
rmc_pub_context.c (init, activate, deactivate, thresholds, announce interval, timeouts, counters, descriptors);
rmc_pub_packet.c; rmc_pub_read.c; rmc_pub_write.c; rmc_pub_timeout.c; rmc_sub_context.c (init, activate, deactivate, getters);
rmc_sub_packet.c; rmc_sub_read.c; rmc_sub_write.c; rmc_sub_timeout.c.

rmc_log.c/.h and time.c are modelled on their own (`Log`); the calls of the library do not log in the model, and the clock is a parameter of every call.
The creation and deletion of any number of contexts, with the blocks allocated for each, is modelled around the contexts' calls (`Life`).

The Wireshark plugin is modelled on its own (`Dissect`): what is shown of a captured buffer.

The loop in which the test programs process timeouts is modelled in `Serve`, their poll callbacks (rmc_proto_test_common.c) in `Epoll`,
the filling of packets with signals by the test publisher and the checks of the test subscriber in `Selftest`, the statistics it prints in `Stats` (exact quotients instead of doubles);
the event loops of the test programs in `Loop`, the time they wait and the main program of the test subscriber in `TestSub`, the main program of the test publisher in `TestPub` (each loop bounded by the rounds the environment supplies).

`CmdLine.lean`: what main of rmc_test.c does with its options.
`UnitTests.lean`: the unit tests rmc_test.c runs first (list_test.c, sub_interval_test.c, circular_buffer_test.c, pub_test.c, sub_test.c), without their messages. That they pass on the models (C95) is also a check of the models against what the project's authors expect.
Not modelled: getopt() and the rest of the test programs (random drops, which have no effect, see finding 41; jitter, which only moves the time of the next packet, arbitrary in `TestPub`), setters of the user data pointers and of callbacks that have no effect on
the rest (the callbacks themselves are modelled by their results and by log entries) and the arguments of socket options (activation is
modelled up to which of its system calls fails and what is closed then).

Simplifications, stated also at the definitions:
* Memory: `malloc` succeeds, as the code assumes. Packets of pub.c and payloads of the subscriber live on explicit heaps with
  liveness, so that use after free and double free are visible. List nodes are at pointer level only in `PtrList`; the modules above it use
  `List`, which C08 justifies (every list operation of the template implements the operation on `List`).
* Integers: packet ids, indexes and lengths are `Nat` with explicit bounds where they can wrap; timestamps are `Int` (the code uses
  int64 microseconds). Histories are shorter than 2^64 calls.
* Callbacks do not call back into the library, except that the packet-ready callback of the subscriber may dispatch packets (the
  library's intended use).
* System calls: `recv`, `recvfrom`, `send`, `sendto`, `accept`, `connect`, `getsockopt`, `setsockopt`, `socket`, `bind` return any
  result, as parameters of the call. Two restrictions, `Op.sane`: a failing `accept` sets errno ≠ 0 and `setsockopt(TCP_NODELAY)`
  on an accepted socket does not fail (when it fails the code closes the wrong slot: C45_false).
* `*op_res` is modelled in `OpRes` (C69) as a function of the state before a call and of the system calls' results; the application is assumed to pass a valid pointer.
* Composed system: one publisher and one subscriber context connected by one TCP connection (both may have other connections);
  datagrams with this publisher's address are datagrams it has sent (no forgery); the connection is neither closed by a side nor broken
  by the network during the history considered, and no call of the history runs into undefined behaviour (when that can
  happen is C52, C55, C15). In TCP the kernel returns any non-empty piece of the bytes sent.

## 6. Findings (defects of the code the theorems exhibit)

1. `circ_buf_trim` (circular_buffer.c) computes with an unsigned difference that underflows when the used part wraps or the start lies beyond the
   length: the buffer claims bytes that were never received (C05_false). Through `rmc_proto_tcp_read` this makes the publisher
   and the subscriber take stale bytes as commands (C12_false, C12_subscriber_false) or read out of bounds (C15_oob). A short read after two earlier commands is enough.
2. `circ_buf_read_offset` with an offset beyond the end of the array reads the wrong bytes (C04_false).
3. Command bytes are stored at `*seg1` even when the first segment is empty: one byte beyond the buffer (C13_cmd_oob, C29_oob, C55_timeout_oob, C54_oob_false).
4. An acknowledgement interval with `last = 2^64-1` never returns (C22_diverges, C15_hang); a control message without a callback set calls an uninitialised pointer (C15_uninit).
5. Packets multicast while nobody is subscribed are never released (C19_false, C32_false); announcements leak.
6. The resend scan starts with the newest packet (C26_false); an announcement that is due suppresses resends in that call.
7. `rmc_pub_close_connection` does not lift a suspension (C25_stuck).
8. The announcement's payload may point into a dead stack frame (C31_false).
9. Pending-send counts a packet once per subscriber (C28_false).
10. The subscriber's first packet defines its base: what it overtakes is dropped (C36_false), and packets multicast before the accept
    are never resent: the subscriber can wait for ever (C51_false).
11. Acknowledgements: only the first interval's age is looked at (C39_late_false), a popped interval is lost when the write buffer is full
    (C39_lost_false), the next timeout is wrong with several publishers and after a close (C40_false, C40_stale_false).
12. Ready packets leak on deactivation (C41_false); a re-announcement while connecting opens a second connection (C43_false);
    closing a slot that is still connecting uses an uninitialised record (C44_false).
13. Poll registrations: reading drops the interest in writing (C48_sub_false), a failing connection attempt removes twice
    (C48_sub_remove_false), the multicast socket (C48_mcast_false).
14. A control message that wraps is copied from the address of the pointer (C54_false).
15. `rmc_conn_process_accept` passes a descriptor where an index is expected (C45_false).
16. Activating a publisher that is active replaces its sockets without closing them (C61_publisher_false).
17. `rmc_log_set_file(NULL)` after a message was logged with automatic colours calls fileno(NULL) (C64_null_false).
18. Deleting a context never frees its array of per-peer records; a failed initialisation leaves two blocks and a context that cannot be deleted (C66_false).
19. The dissector shows the previous acknowledgement (or 0-0) again when a segment ends within one, and does not ask for the rest (C67_false).
20. `*op_res` (C69_false): a successful read of the publisher's multicast socket leaves it unassigned; a failed multicast write reports RMC_WRITE_MULTICAST; a failed completion of a connection reports RMC_COMPLETE_CONNECTION; reading an empty multicast socket returns 0 with RMC_ERROR; a vetoed connection reports RMC_READ_ACCEPT; RMC_READ_MULTICAST_NEW and RMC_READ_MULTICAST_LOOPBACK are never reported.
21. A publisher that is suspended swallows its announcements: `rmc_pub_timeout_process` queues them like packets, and `rmc_pub_queue_packet` refuses while traffic is suspended (rmc_pub_packet.c 35); the error is not passed on and the next announcement is scheduled as if this one had gone out. With throttling and nobody subscribed, a few packets suspend it for good: nobody can ever join, nothing can ever be queued (C73_mute_false, C25_stuck).
22. Overdue packets are resent newest first (pub.c 320-335, rmc_pub_timeout.c), and a subscriber takes the first packet it gets for the beginning: a new subscriber that misses the first datagrams loses all of them but the newest, although they are resent and acknowledged (C74_false).
23. Stale bytes of the ring read again make the publisher hand one control message over twice (C72_false).
24. On closing a connection payload_free gets the connection's index in place of the context's user data, and index and pointer share a union, so an application that uses its user data as a pointer dereferences the index (C76_false). The publisher's payload_free always gets nil user data (not modelled).
25. The index of a packet that is still with the application can be that of another publisher's connection (C78_false).
26. Not modelled: `rmc_pub_set_user_data` and `rmc_sub_set_user_data` change the context only, not the connection table, so poll callbacks for connections keep getting the old value.
27. A packet queued (or an announcement falling due) before activation calls poll_modify for the multicast index, which was never added, with descriptor -1 (C79_false).
28. An application that processes timeouts in a loop as long as the next one is due (as the test programs do) spins while a packet is overdue and a newer one is not (C80_false).
29. One subscriber that does not read its connection stops resends to all subscribers connected after it (C81_false).
30. With the test programs' event loop, a publisher deactivated with packets queued and activated again never multicasts again: the old action passed is the wished one, so the event loop changes nothing (C84_pub_false, C84_pub_forever); a packet queued before activation ends the program (C84_pub_false).
31. A subscriber whose bind() fails keeps a multicast socket the event loop does not know of, and cannot be activated again (C84_sub_bind_false).
32. The self-test raises the alarm if the first datagram to a subscriber that was connected in time is lost or overtaken: the subscriber's library starts with the first packet that comes in (C86_false; see C74_false).
33. The self-test's subscriber overflows an `int` when a publisher announces 2^31 - 1 signals or more (C85_large), its publisher announces the number of signals modulo 2^32 (C86_large), and the check for data corruption can never fail (C85_verdict: the outcome does not occur); were it to fail, the program would exit with status 0. `-E <n>` of rmc_test.c falls through into `-e <n>`.
34. The event loop of the test subscriber closes a connection whenever `rmc_sub_write` does not return 0, also for EAGAIN (C87_sub_eagain_false); the one of the test publisher does not (C87_pub_write). Both log the wrong result (`res` of the read) for a write.
35. While it waits for subscribers and between packets, the test publisher processes timeouts only when epoll_wait() reports no event (rmc_proto_test_pub.c:248-250, 314-320): events that keep coming hold up announcements and retransmissions. "Make sure we run the loop at least one" (304-306) does not do so: if the time of the next packet is past, the loop is skipped (C90_no_round).
36. The test publisher sets no control message callback, so a control message from a subscriber makes it call an uninitialised pointer (finding 4).
37. rmc_test.c:161-163 has no `break` after `case 'E'`: the number of subscribers of `-E` is also taken for a node to expect (a subscriber then waits for it for ever, C92_waits), `-E 0` and `-E 1024` are refused (C92_false).
38. rmc_test.c:118, 122, 126 copies addresses from the command line with strcpy() into arrays of 80 bytes (C92_crash).
39. The usage text allows nodes 1 to 1000, the program 1 to 1023; the option string has an `n` no case handles, so `-n 1` prints the usage text.
40. sub_test.c: checks 2.2, 2.4 and 2.6 (out of order packets are dispatched in order) look at empty lists, since sub_reset_publisher() leaves max_pid_ready at 5 and the packets 1-4 are then never dispatched (C95_subscriber); lines 137-138 use va_arg after va_end; from line 298 on the test is inside a comment. circular_buffer_test.c:270 checks the first segment twice, never the second (C95_write_data holds for every expected second length); check_integrity does not terminate when stop_ind equals size (C95_check_hangs).
41. rmc_test's `-d <drop-rate>` has no effect: the flag is only logged ("dropped packet"); the code that would mark the packet as sent without sending it is in a comment (rmc_proto_test_pub.c:115-146, 285-299). A run of the self-test with drops tests nothing of retransmission.
42. rmc_proto_test_sub.c:216: the rate `(int) max_received / ((stop_ts - start_ts) / 1000000.0)` is infinite if the last signal is handled in the microsecond of the first (always so possible with `-c 1`), and converting it to `int` is undefined (C100_false).
43. After connecting again to a publisher a subscriber takes the first packet that comes in as the beginning, and the network may still deliver a datagram multicast before: the application gets a packet of the old connection a second time (C101_false). The ids already delivered are forgotten with the old connection (sub_reset_publisher at the close).
44. After connecting again a subscriber asks for nothing and is given nothing of what it missed: packets sent but not delivered when the old connection ended, and packets multicast until the publisher has accepted the new one, are never delivered (C102_false); pub_reset_subscriber gives up what the closed connection was owed.

## 7. Wrong programs

`seeded/LOG.jsonl` records each edit of the model that imitates a realistic bug, the claim it breaks and the theorems that no
longer compile; `seeded/harness` has the edits and the runner (`run.py`). Where an edit broke a claim and nothing failed, the theorem
was tightened and the entry says so.
