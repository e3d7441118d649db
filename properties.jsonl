{"id": "C01", "title": "Circular buffer: space accounting is exact", "statement": "After any sequence of init/alloc/trim/free calls that respects the documented use, in_use + available + 1 = size, in_use is the number of bytes queued and not yet freed, and available is exactly the largest length the next alloc will accept.", "quantifier": "every buffer size up to 2^31, every wrapped or unwrapped index position, every operation sequence", "why_tests_cant": "Wrap-around cases depend on the combination of start, stop and size; tests sample a few positions only.", "anchors": ["circular_buffer.c: circ_buf_init, circ_buf_in_use, circ_buf_available, circ_buf_alloc, circ_buf_free"]}
{"id": "C02", "title": "Circular buffer is a byte FIFO", "statement": "For any sequence of operations (reserve n bytes and fill them, discard from the front, read, look at the segments; trim is C05), what is read is exactly what a plain unbounded-list byte queue would return: bytes come out in order, unmodified, none lost, none invented, and reserving space never changes bytes already queued.", "quantifier": "every operation sequence, every payload, every buffer size and wrap position", "why_tests_cant": "The number of operation histories and wrap alignments is unbounded.", "anchors": ["circular_buffer.c: circ_buf_alloc, circ_buf_free, circ_buf_read, circ_buf_read_segment"]}
{"id": "C03", "title": "Circular buffer allocation is all-or-nothing and in bounds", "statement": "alloc(len) returns ENOMEM and changes nothing iff len > available; otherwise it returns at most two regions that lie inside the backing array, have total length exactly len, do not overlap each other nor any byte already queued.", "quantifier": "every buffer state reachable by the API and every requested length", "why_tests_cant": "An off-by-one shows only for specific start/stop/len alignments.", "anchors": ["circular_buffer.c: circ_buf_alloc"]}
{"id": "C04", "title": "Circular buffer offset read returns the bytes at that offset", "statement": "read_offset(off, n) returns the min(n, in_use-off) queued bytes beginning off bytes into the queue and EINVAL iff off > in_use, wherever the queue wraps. (False of the code for off larger than the bytes left before the wrap point: see the theorem pair.)", "quantifier": "every buffer state, offset and length", "why_tests_cant": "The failing alignments (offset beyond half of the first segment and data wrapping) are rare.", "anchors": ["circular_buffer.c: circ_buf_read_offset", "rmc_pub_read.c: process_control_message"]}
{"id": "C05", "title": "Circular buffer trim keeps exactly the requested prefix", "statement": "trim(n) leaves the first min(n, in_use) queued bytes queued and returns the rest to the free space, with the indices staying inside the buffer. (False of the code on a class of wrapped states: characterised exactly.)", "quantifier": "every buffer state and target length", "why_tests_cant": "The bad class requires a wrapped buffer with a specific relation among start, stop and target.", "anchors": ["circular_buffer.c: circ_buf_trim", "rmc_protocol.c: rmc_conn_tcp_read"]}
{"id": "C06", "title": "Circular buffer segment view equals the queue prefix", "statement": "read_segment(n) returns one or two in-bounds regions whose concatenation is exactly the first min(n,in_use) queued bytes, without consuming anything; so what a gathered write of those regions puts on the socket is a prefix of the queue.", "quantifier": "every buffer state and size limit", "why_tests_cant": "FIXME in the source says the function has no test at all.", "anchors": ["circular_buffer.c: circ_buf_read_segment", "rmc_protocol.c: rmc_conn_tcp_write"]}
{"id": "C07", "title": "Circular buffer operations never touch memory outside the backing array", "statement": "Every load or store performed through the buffer API, by the operations themselves or through the regions they hand out, is within the array given to init.", "quantifier": "every reachable buffer state, every argument", "why_tests_cant": "Memory errors in C may go unnoticed by a test that passes.", "anchors": ["circular_buffer.c: all functions"]}
{"id": "C08", "title": "Intrusive list operations keep the list well linked", "statement": "After any sequence of push/insert/unlink/delete/pop/empty operations, the forward links from head and the backward links from tail describe the same sequence, the stored element count is its length, and each operation changes that sequence exactly as documented and touches no other list.", "quantifier": "every list length, every position, every operation sequence", "why_tests_cant": "Pointer surgery has per-position special cases; sequences are unbounded.", "anchors": ["rmc_list_template.h: RMC_LIST_IMPL"]}
{"id": "C09", "title": "Sorted insertion keeps a list sorted; search finds exactly the members", "statement": "insert_sorted (from head) and insert_sorted_rev (from tail) on a list ordered by the comparator keep it ordered and add exactly one element; the find functions return an element iff one matches.", "quantifier": "every list content and every key", "why_tests_cant": "Unbounded list contents.", "anchors": ["rmc_list_template.h: insert_sorted_node, insert_sorted_node_rev, find_node, find_node_rev", "pub.c: pub_queue_packet_with_pid, pub_packet_sent"]}
{"id": "C10", "title": "Wire format round-trips", "statement": "Decoding the bytes produced for a multicast packet header, an acknowledgement interval or a control message header yields the original field values; encodings are injective and have the documented fixed lengths (20, 16 and 2 bytes).", "quantifier": "all values of all header fields", "why_tests_cant": "2^300 header values.", "anchors": ["rmc_protocol.h", "rmc_internal.h: packet header structs", "rmc_pub_write.c: setup_packet_header"]}
{"id": "C11", "title": "A packet accepted for queueing always fits every later buffer", "statement": "A payload accepted by rmc_pub_queue_packet is never larger than what the multicast datagram, the 16-bit length field, an empty TCP write buffer (resend) and an empty TCP read buffer (reception) can hold; a longer one is rejected with EMSGSIZE with no effect.", "quantifier": "all payload lengths", "why_tests_cant": "Boundary lengths interact with four independent constants.", "anchors": ["rmc_pub_packet.c: rmc_pub_queue_packet", "rmc_internal.h: RMC_MAX_PACKET, RMC_MAX_PAYLOAD", "rmc_pub_write.c: send_single_multicast_packet, rmc_pub_resend_packet"]}
{"id": "C12", "title": "TCP command parsing is independent of how the stream is chunked", "statement": "However the byte stream of a TCP connection is split into reads, the commands dispatched, their order and their contents are those of the concatenated stream, and an incomplete trailing command stays buffered untouched.", "quantifier": "every command sequence and every split into reads, every ring alignment", "why_tests_cant": "Chunkings are exponential in the stream length and interact with the ring-buffer wrap point.", "anchors": ["rmc_protocol.c: rmc_conn_process_tcp_read, rmc_conn_tcp_read", "rmc_pub_read.c: process_cmd_ack_interval, process_control_message", "rmc_sub_read.c: process_cmd_packet"]}
{"id": "C13", "title": "TCP output is sent in order with no loss or duplication under partial writes", "statement": "Whatever number of bytes each socket write accepts, the concatenation of what has been written and what is still pending is exactly the concatenation of all commands queued on that connection, and the pending count reported is exact.", "quantifier": "every sequence of queued commands and every sequence of partial write results", "why_tests_cant": "Partial-write schedules are unbounded.", "anchors": ["rmc_protocol.c: rmc_conn_tcp_write", "rmc_connection.c: rmc_conn_get_pending_send_length"]}
{"id": "C14", "title": "Unknown TCP command is rejected without being consumed; a partial command has no effect", "statement": "Dispatch stops with EPROTO at the first byte that is not a known command, after having dispatched everything before it; a command whose bytes are not all there has no effect on anything.", "quantifier": "every byte stream", "why_tests_cant": "Unbounded streams.", "anchors": ["rmc_protocol.c: rmc_conn_process_tcp_read", "rmc_pub_read.c: rmc_pub_read", "rmc_sub_read.c: rmc_sub_read"]}
{"id": "C15", "title": "No byte stream from a peer can make an endpoint crash or hang", "statement": "For every byte stream received from a TCP peer, processing terminates without undefined behaviour. (False of the publisher: an acknowledgement interval ending at 2^64-1 never terminates.)", "quantifier": "every byte stream and chunking", "why_tests_cant": "Fuzzing cannot cover every stream.", "anchors": ["rmc_pub_read.c: process_cmd_ack_interval", "rmc_protocol.c: rmc_conn_process_tcp_read"]}
{"id": "C16", "title": "Packet ids are assigned consecutively and never reused", "statement": "The i-th payload accepted for acknowledged delivery by a publisher context gets packet id i (from 1), announcements get id 0, and no two acknowledged packets ever share an id.", "quantifier": "every history of publisher calls (below 2^64 packets)", "why_tests_cant": "Histories are unbounded.", "anchors": ["pub.c: _next_pid, pub_queue_packet, pub_queue_no_acknowledge_packet"]}
{"id": "C17", "title": "Packets are multicast in the order they were queued", "statement": "Acknowledged packets leave on the multicast socket in increasing packet id, each exactly once, with the payload given to rmc_pub_queue_packet; announcements go before acknowledged packets queued.", "quantifier": "every interleaving of queueing, sending, failed sends, acks, timeouts", "why_tests_cant": "Interleavings are unbounded.", "anchors": ["pub.c: pub_queue_packet_with_pid, pub_next_queued_packet, pub_packet_sent", "rmc_pub_write.c: send_single_multicast_packet"]}
{"id": "C18", "title": "A payload is handed back at most once and never while a subscriber still owes an acknowledgement", "statement": "For each payload accepted by rmc_pub_queue_packet the payload-free callback is called at most once; when it is called the packet has been sent and every subscriber that was connected at send time has acknowledged it or been closed.", "quantifier": "every history of queue/send/ack/subscribe/unsubscribe/timeout events", "why_tests_cant": "Needs every interleaving of acks from every subscriber set.", "anchors": ["pub.c: pub_packet_ack, pub_packet_sent, pub_reset_subscriber"]}
{"id": "C19", "title": "A payload is handed back as soon as the last outstanding acknowledgement arrives", "statement": "A sent packet that every subscriber (connected when it was sent) has acknowledged is freed and no longer counted as unacknowledged. (False of the code when no subscriber was connected when the packet was sent: it stays in flight for ever.)", "quantifier": "every history", "why_tests_cant": "As above.", "anchors": ["pub.c: pub_packet_sent, pub_packet_ack, pub_get_unacknowledged_packet_count"]}
{"id": "C20", "title": "Publisher memory safety: no use after free, double free or failed assertion", "statement": "No history of publisher operations makes the packet lists refer to a freed packet, frees one twice, or trips the assertion in pub_reset_subscriber.", "quantifier": "every history", "why_tests_cant": "Use-after-free depends on long interleavings of shared references between lists.", "anchors": ["pub.c: all functions"]}
{"id": "C21", "title": "Acknowledging an unknown or already acknowledged packet has no effect", "statement": "An acknowledgement for a pid not outstanding at that subscriber (never sent to it, already acknowledged, announcement, not sent yet) leaves the publisher's state unchanged.", "quantifier": "every publisher state, subscriber and pid", "why_tests_cant": "Unbounded state space.", "anchors": ["pub.c: pub_packet_ack"]}
{"id": "C22", "title": "An acknowledgement interval acknowledges exactly the packets it covers, at that subscriber only", "statement": "Processing an interval [a,b] removes exactly the packets with a <= pid <= b from the sender's outstanding set and changes no other subscriber's outstanding set. (Does not terminate when b = 2^64-1.)", "quantifier": "every state and all 2^128 intervals", "why_tests_cant": "Huge interval space; the failing interval is a single boundary value.", "anchors": ["rmc_pub_read.c: process_cmd_ack_interval", "rmc_pub_packet.c: rmc_pub_packet_ack"]}
{"id": "C23", "title": "A subscriber owes acknowledgements exactly for packets sent while it is connected", "statement": "When a subscriber is added it owes nothing; each packet sent afterwards is owed by every connected subscriber; nothing sent before is.", "quantifier": "every history", "why_tests_cant": "Unbounded histories.", "anchors": ["pub.c: pub_init_subscriber, pub_packet_sent"]}
{"id": "C24", "title": "Closing one subscriber does not disturb the others", "statement": "When a subscriber is closed, its outstanding packets are released as though acknowledged, every other subscriber's outstanding set is unchanged, and no packet another subscriber still owes is freed.", "quantifier": "every publisher state and subscriber", "why_tests_cant": "As C18.", "anchors": ["pub.c: pub_reset_subscriber", "rmc_pub_read.c: rmc_pub_close_connection"]}
{"id": "C25", "title": "Throttling hysteresis", "statement": "With thresholds suspend >= resume and suspend > 0: rmc_pub_queue_packet is refused with EBUSY exactly while suspended; suspension starts when the unacknowledged count reaches the suspend threshold and lasts until it has dropped to the resume threshold; at that point queueing is possible again. (False when the count drops because a subscriber was closed: the publisher stays suspended for ever.)", "quantifier": "every history and threshold pair", "why_tests_cant": "Requires every history.", "anchors": ["rmc_pub_packet.c: rmc_pub_queue_packet, rmc_pub_packet_ack", "rmc_pub_context.c: rmc_pub_throttling"]}
{"id": "C26", "title": "Every packet unacknowledged for longer than the resend timeout is resent", "statement": "When the publisher processes timeouts at time t every packet sent at or before t - resend_timeout and still owed by a connected subscriber is queued on that subscriber's TCP connection, oldest first, unless the connection's buffer is full. (False: the scan starts at the newest packet and stops at the first one not timed out.)", "quantifier": "every outstanding set, time and resend timeout", "why_tests_cant": "Depends on send-time patterns across the in-flight list.", "anchors": ["pub.c: pub_get_timed_out_packets, pub_get_timed_out_subscribers", "rmc_pub_timeout.c: process_sent_packet_timeout, process_subscriber_timeout"]}
{"id": "C27", "title": "Publisher's next timeout is the earliest pending deadline", "statement": "rmc_pub_timeout_get_next returns the minimum over the oldest outstanding packet's deadline and the next announcement, and -1 iff there is neither.", "quantifier": "every publisher state reached with monotone clocks", "why_tests_cant": "All states.", "anchors": ["rmc_pub_timeout.c: rmc_pub_timeout_get_next", "pub.c: pub_get_oldest_unackowledged_packet"]}
{"id": "C28", "title": "Pending-send report of the publisher is exact", "statement": "rmc_pub_context_get_pending reports exactly the number of packets queued for multicast, the number sent and not fully acknowledged, and the number of bytes awaiting TCP transmission over all connections.", "quantifier": "every state", "why_tests_cant": "All states.", "anchors": ["rmc_pub_write.c: rmc_pub_context_get_pending", "rmc_connection.c: rmc_conn_get_pending_send_length"]}
{"id": "C29", "title": "A resend is all-or-nothing and is decodable by the subscriber", "statement": "rmc_pub_resend_packet either leaves the connection unchanged and returns EAGAIN (not enough room) or appends exactly the command byte, the header and the payload of the packet, which the subscriber's parser decodes to the same pid and payload.", "quantifier": "every packet, every buffer fill level and wrap position", "why_tests_cant": "All ring alignments.", "anchors": ["rmc_pub_write.c: rmc_pub_resend_packet", "rmc_sub_read.c: process_cmd_packet"]}
{"id": "C30", "title": "Announcements are rate limited and stop when disabled", "statement": "Two announcements are never queued closer than the announce interval, none is queued while the interval is 0, and after the deadline the next timeout processing queues one.", "quantifier": "every sequence of clock values and interval changes", "why_tests_cant": "Unbounded schedules.", "anchors": ["rmc_pub_timeout.c: rmc_pub_timeout_process", "rmc_pub_context.c: rmc_pub_set_announce_interval"]}
{"id": "C31", "title": "The announcement payload put on the wire is the one the callback supplied", "statement": "The bytes multicast for an announcement are those the announce callback wrote. (False: the queued packet refers to a stack buffer of a function that has returned before it is sent.)", "quantifier": "every announcement with a non-empty payload", "why_tests_cant": "Stack contents may by luck survive in a test.", "anchors": ["rmc_pub_timeout.c: rmc_pub_timeout_process", "pub.c: pub_queue_no_acknowledge_packet"]}
{"id": "C32", "title": "Every payload accepted is eventually handed back", "statement": "After deactivating a publisher context every payload ever accepted has been given to the payload-free callback exactly once. (False: packets still queued, or in flight without subscribers, are never released.)", "quantifier": "every history followed by deactivation", "why_tests_cant": "Leaks only show for specific leftover states.", "anchors": ["rmc_pub_context.c: rmc_pub_deactivate_context", "pub.c"]}
{"id": "C33", "title": "The subscriber delivers each publisher's packets in order, without gap or duplicate", "statement": "For each publisher connection the sequence of packets handed to the application consists of consecutive packet ids with no repetition, whatever order, duplication or loss affects multicast and resend.", "quantifier": "every arrival sequence of packets (any order, duplicates, losses)", "why_tests_cant": "Permutations with repetition are unbounded.", "anchors": ["sub.c: sub_packet_received, sub_process_received_packets, sub_packet_is_duplicate", "rmc_sub_packet.c: rmc_sub_packet_received, rmc_sub_get_next_dispatch_ready"]}
{"id": "C34", "title": "A delivered packet carries the payload that arrived with its id", "statement": "The payload handed to the application for packet id p is the payload of the first accepted arrival of p, unmodified.", "quantifier": "every arrival sequence", "why_tests_cant": "As C33.", "anchors": ["sub.c: sub_packet_received", "rmc_sub_read.c: decode_subscribed_multicast"]}
{"id": "C35", "title": "Duplicates have no effect", "statement": "The arrival of a packet already received, whether waiting for a gap to fill, ready or dispatched, changes nothing in the subscriber's state and triggers no callback.", "quantifier": "every state and packet", "why_tests_cant": "As C33.", "anchors": ["sub.c: sub_packet_is_duplicate", "rmc_sub_read.c: decode_subscribed_multicast, process_cmd_packet"]}
{"id": "C36", "title": "Every packet sent while subscribed is delivered once it has arrived together with all packets before it", "statement": "Once all packets sent since the subscription started up to pid p have arrived in any order, p is ready for dispatch. (False: the first packet processed fixes the start of the sequence; an earlier packet that arrives later is dropped as a duplicate.)", "quantifier": "every arrival order", "why_tests_cant": "The failing order needs the very first packet to be delayed or lost.", "anchors": ["sub.c: sub_process_received_packets, sub_packet_is_duplicate"]}
{"id": "C37", "title": "The acknowledgement interval list describes exactly the packets received and not yet acknowledged", "statement": "The intervals are sorted, disjoint, non-adjacent and their union is exactly the set of packet ids recorded for acknowledgement and not acknowledged yet.", "quantifier": "every arrival sequence without duplicates (which is how the library calls it)", "why_tests_cant": "Interval merging has many cases.", "anchors": ["sub.c: _add_to_received_interval"]}
{"id": "C38", "title": "The subscriber never acknowledges a packet it has not received", "statement": "Every packet id covered by an acknowledgement put on a TCP connection was received on that connection's publisher before.", "quantifier": "every history", "why_tests_cant": "Safety over all histories.", "anchors": ["rmc_sub_timeout.c: rmc_sub_timeout_process", "rmc_sub_write.c: rmc_proto_sub_write_interval_acknowledgement"]}
{"id": "C39", "title": "Every received multicast packet is acknowledged after the ack timeout", "statement": "When timeouts are processed ack_timeout after reception, an acknowledgement covering the packet is on its way on the TCP connection. (False when the TCP buffer is full: the interval is dropped; the publisher then resends.)", "quantifier": "every history", "why_tests_cant": "All buffer fill levels and arrival patterns.", "anchors": ["rmc_sub_timeout.c: rmc_sub_timeout_process"]}
{"id": "C40", "title": "Subscriber's next timeout is the earliest acknowledgement deadline", "statement": "rmc_sub_timeout_get_next returns the earliest time at which some received packet must be acknowledged and -1 iff there is none. (False: only the head of a list which is not ordered by age is looked at, and within a publisher the first interval rather than the oldest.)", "quantifier": "every state", "why_tests_cant": "All states.", "anchors": ["rmc_sub_timeout.c: rmc_sub_timeout_get_next", "sub.c: sub_oldest_unacknowledged_packet", "rmc_sub_packet.c: rmc_sub_packet_received"]}
{"id": "C41", "title": "Subscriber payload memory: each payload allocated is freed at most once, and all are released on shutdown", "statement": "Each payload the subscriber allocates is freed at most once by the library or handed over by the keep-payload call, never both; after deactivation none is left. (The last part is false: packets ready for dispatch are leaked by deactivation.)", "quantifier": "every history", "why_tests_cant": "Leaks and double frees depend on histories.", "anchors": ["rmc_sub_packet.c: rmc_sub_packet_dispatched, rmc_sub_packet_dispatched_keep_payload", "sub.c: sub_reset_publisher", "rmc_sub_context.c: rmc_sub_deactivate_context"]}
{"id": "C42", "title": "Dispatch bookkeeping: only the packet handed out can be marked dispatched, once", "statement": "Marking a packet dispatched removes exactly that packet from the ready list and frees its payload; doing so for a packet not in the list returns ENOENT and changes nothing; the ready count is exact.", "quantifier": "every state", "why_tests_cant": "All states.", "anchors": ["rmc_sub_packet.c: rmc_sub_packet_dispatched_keep_payload, rmc_sub_get_dispatch_ready_count"]}
{"id": "C43", "title": "At most one connection per announcing publisher", "statement": "Announcements from a publisher already subscribed to, or being connected to, do not open another connection; the announce callback can veto. (False: while the connection is being set up each further announcement opens another one.)", "quantifier": "every sequence of announcements", "why_tests_cant": "Needs announcements in the connect window.", "anchors": ["rmc_sub_read.c: process_multicast_read, decode_unsubscribed_multicast", "rmc_connection.c: rmc_conn_connect_tcp_by_address"]}
{"id": "C44", "title": "Closing or deactivating a subscriber is safe in every connection state", "statement": "Closing a connection never uses uninitialised publisher state. (False: a connection closed while still connecting has its publisher record reset though it was never initialised.)", "quantifier": "every connection state", "why_tests_cant": "Timing of connect completion.", "anchors": ["rmc_sub_read.c: rmc_sub_close_connection", "rmc_sub_context.c: rmc_sub_deactivate_context"]}
{"id": "C45", "title": "Connection slot accounting", "statement": "A slot is in use exactly between a successful accept/connect and the matching close; the active count equals the number of slots in use; the highest-used index bound covers every slot in use; ENOMEM is returned iff all slots are taken.", "quantifier": "every sequence of connect/accept/complete/close", "why_tests_cant": "Unbounded histories.", "anchors": ["rmc_connection.c: _get_free_slot, _reset_max_connection_ind, rmc_conn_close_connection, rmc_conn_accept, rmc_conn_connect_tcp_by_address"]}
{"id": "C46", "title": "Connection lookup returns the right connection", "statement": "Looking up a connection by index, address or node id returns a live connection with that key iff there is one.", "quantifier": "every connection table", "why_tests_cant": "All tables.", "anchors": ["rmc_connection.c: rmc_conn_find_by_index, rmc_conn_find_by_address, rmc_conn_find_by_node_id"]}
{"id": "C47", "title": "A reused slot starts clean", "statement": "A connection occupying a slot previously used has empty read and write buffers and no outstanding packets or intervals from the previous occupant.", "quantifier": "every history", "why_tests_cant": "Stale state shows only on reuse.", "anchors": ["rmc_connection.c: _reset_connection, rmc_conn_accept, rmc_conn_connect_tcp_by_address", "pub.c: pub_init_subscriber, pub_reset_subscriber"]}
{"id": "C48", "title": "Poll registrations are balanced and write interest is registered while data is pending", "statement": "For each connection poll-add is called once and poll-remove at most once after it, and whenever bytes are pending for a connection (or packets for multicast) the last poll action registered asks for write readiness, and only then; connections that are set up are registered for reading. (True of the publisher's connections; false of the subscriber, whose read path rearms for reading only.)", "quantifier": "every history", "why_tests_cant": "A missing rearm hangs only under particular interleavings.", "anchors": ["rmc_pub_write.c: rmc_pub_write, rmc_pub_resend_packet", "rmc_pub_read.c: rmc_pub_read", "rmc_sub_read.c: rmc_sub_read", "rmc_sub_write.c: rmc_sub_write"]}
{"id": "C49", "title": "End-to-end safety", "statement": "With a publisher, a subscriber, a multicast network that loses, duplicates and reorders arbitrarily and a TCP connection that delivers its bytes in order but in pieces of any size: as long as the connection is up, the payloads delivered to the subscriber's application are a contiguous piece of the sequence of payloads queued by the publisher's application, in that order, byte for byte: nothing in between is left out, repeated, reordered, altered or invented.", "quantifier": "every execution of the composed system, any other connections and calls on both sides", "why_tests_cant": "Interleavings of two programs and a faulty network are unbounded.", "anchors": ["pub.c", "sub.c", "rmc_pub_write.c", "rmc_sub_read.c"]}
{"id": "C50", "title": "End-to-end: a payload is released only after the subscriber has it", "statement": "As long as the connection is up and no read from it has returned a protocol error to the publisher, every packet multicast since the publisher accepted the connection is still held for the subscriber (and not released to the application), or a complete copy of it is in the TCP stream to the subscriber, or the subscriber has received it. So a released packet has arrived or is on its way over TCP.", "quantifier": "every execution of the composed system, any other connections and calls on both sides", "why_tests_cant": "As C49.", "anchors": ["rmc_pub_timeout.c: process_sent_packet_timeout", "rmc_sub_timeout.c", "pub.c: pub_packet_ack"]}
{"id": "C51", "title": "End-to-end progress", "statement": "From any state of the composed system in which the connection is up, if multicast loses everything from then on but timeouts are processed and TCP is drained, every packet sent after the subscriber's first received packet is delivered.", "quantifier": "every reachable state of the composed system", "why_tests_cant": "Liveness over all states.", "anchors": ["rmc_pub_timeout.c", "rmc_pub_write.c", "rmc_sub_read.c: process_cmd_packet", "sub.c"]}
{"id": "C52", "title": "No publisher call faults except on peer data", "statement": "After any history of API calls, no call on a publisher context crashes, hangs, trips an assertion or touches memory it does not own, except reading bytes from a connected subscriber (C15) and timeout processing, which can only store one byte beyond a full-to-the-end write buffer (C29), and that only if a packet is late for a subscriber whose write buffer has been sent in part but not emptied.", "quantifier": "every history of API calls, all socket, clock and callback results", "why_tests_cant": "Use after free and failed assertions depend on the whole history.", "anchors": ["rmc_pub_context.c", "rmc_pub_read.c", "rmc_pub_write.c", "rmc_pub_timeout.c", "rmc_pub_packet.c", "pub.c"]}
{"id": "C53", "title": "Each datagram multicast is the header of the packet followed by its payload", "statement": "The datagrams given to the multicast socket are, in order, one per packet sent: a 20 byte header with the packet's id, the publisher's node id, listen address and port and the payload length, followed by the payload bytes (announcements: C31).", "quantifier": "every history of API calls", "why_tests_cant": "Quantifies over all histories.", "anchors": ["rmc_pub_write.c: _send_multicast_packet"]}
{"id": "C54", "title": "A control message reaches the TCP stream intact", "statement": "A control message sent by the subscriber to a connected publisher is appended to that connection's byte stream as command 3, its length and exactly the bytes given, behind everything pending; it is refused with ENOMEM, and nothing changes, if there is no room. (False when the message wraps around the end of the write buffer: bytes of the pointer are sent instead of the payload, or memory beyond it is read.)", "quantifier": "every history of API calls, every payload", "why_tests_cant": "Depends on where the write position of the buffer is, which the whole history determines.", "anchors": ["rmc_sub_context.c: rmc_sub_write_control_message_by_address", "rmc_sub_context.c: rmc_sub_write_control_message_by_node_id"]}
{"id": "C55", "title": "Which subscriber calls can fault", "statement": "After any history of API calls, no call on a subscriber context crashes, hangs, trips an assertion or touches memory it does not own, except: reading bytes from a connected publisher, which can only read beyond the read buffer or never end, and only if the bytes come in behind buffered ones in the way circ_buf_trim gets wrong (C05), timeout processing, which can only store one byte beyond a full-to-the-end write buffer, sending a control message (C54) and closing a connection that is still being set up (C44).", "quantifier": "every history of API calls, all socket, clock and callback results", "why_tests_cant": "Use after free and failed assertions depend on the whole history.", "anchors": ["rmc_sub_context.c", "rmc_sub_read.c", "rmc_sub_write.c", "rmc_sub_timeout.c", "rmc_sub_packet.c", "sub.c"]}
{"id": "C56", "title": "The counts reported are exact", "statement": "The publisher's subscriber count is the number of its connected subscribers, the subscriber's publisher count is the number of its connections, and the socket counts are those plus the multicast (and listen) sockets that are open.", "quantifier": "every history of API calls", "why_tests_cant": "The counters are maintained incrementally in many places.", "anchors": ["rmc_pub_context.c: rmc_pub_get_subscriber_count, rmc_pub_get_socket_count", "rmc_sub_context.c: rmc_sub_get_publisher_count, rmc_sub_get_socket_count", "connection.c"]}
{"id": "C57", "title": "The packet-ready callback is called whenever packets became ready", "statement": "Whenever a received packet makes packets ready for dispatch and a callback is installed, the callback installed at that time is called after they were put on the ready list; it is called at no other time, and by no call other than those that receive packets.", "quantifier": "every history of API calls", "why_tests_cant": "Depends on every path along which packets arrive.", "anchors": ["rmc_sub_read.c", "sub.c: sub_process_received_packets", "rmc_sub_context.c: rmc_sub_set_packet_ready_callback"]}
{"id": "C58", "title": "The publisher's connect and disconnect callbacks match the connections", "statement": "Accepting a subscriber calls the connect callback once for it, and refusing it there closes it again; the disconnect callback is called exactly once for every subscriber connection that ends, however it ends (closed by the API, end of stream, refusal, deactivation).", "quantifier": "every history of API calls, all socket and callback results", "why_tests_cant": "There are many paths on which a connection ends.", "anchors": ["rmc_pub_read.c: rmc_pub_close_connection, rmc_pub_read", "rmc_pub_context.c: rmc_pub_deactivate_context, rmc_pub_set_subscriber_connect_callback, rmc_pub_set_subscriber_disconnect_callback"]}
{"id": "C59", "title": "The stream from a publisher is understood whatever the chunks", "statement": "However the bytes that a publisher sends over a connection are cut into reads, and whatever other calls are made in between: as long as the connection stays up, the packets that come in over it are exactly those of the complete commands in the bytes read, each once, in order, with their bytes, and exactly the bytes behind the last complete command are kept. A read leaves the connection up unless nothing came in, the bytes end in no command, or circ_buf_trim gets them wrong.", "quantifier": "every history, every cutting of the stream into reads, every interleaving with other calls", "why_tests_cant": "Quantifies over all cuttings and interleavings.", "anchors": ["rmc_protocol.c: _rmc_read_tcp, _rmc_process_tcp_read", "rmc_sub_read.c: rmc_sub_read, process_cmd_packet", "circular_buffer.c"]}
{"id": "C60", "title": "Acknowledgements are recorded exactly as sent whatever the chunks", "statement": "However the bytes that a subscriber sends are cut into reads, and whatever other calls are made in between: from the call that accepted the connection on, as long as the subscriber stays connected and no read on its connection returns EPROTO, the acknowledgements recorded by the reads are exactly those of the complete commands in the bytes read, one after the other, and exactly the bytes behind the last complete command are kept.", "quantifier": "every history, every cutting of the stream into reads, every interleaving with other calls", "why_tests_cant": "As C59.", "anchors": ["rmc_protocol.c: _rmc_read_tcp, _rmc_process_tcp_read", "rmc_pub_read.c: rmc_pub_read, process_cmd_ack_interval", "circular_buffer.c"]}
{"id": "C61", "title": "Descriptors are not leaked and not closed twice", "statement": "Every file descriptor a context obtains (multicast socket, listen socket, accepted and outgoing connections) is closed exactly once or still held by exactly one place of the context, failing activations included; a descriptor is never closed while it is not open; after deactivation all are closed. (False for the publisher when it is activated while already active: the earlier sockets are never closed.)", "quantifier": "every history of API calls, all results of the system calls", "why_tests_cant": "Leaks and double closes depend on every path of every call and on the order of calls.", "anchors": ["rmc_connection.c", "rmc_pub_context.c: rmc_pub_activate_context, rmc_pub_deactivate_context", "rmc_sub_context.c: rmc_sub_activate_context, rmc_sub_deactivate_context", "rmc_pub_read.c", "rmc_sub_read.c"]}
{"id": "C62", "title": "Return codes say what happened, and refused calls change nothing", "statement": "Every API call returns the documented code in every reachable state: 0 exactly when it did what was asked (EAGAIN when it should be called again), ENOTCONN for a connection or socket that is not there, EINVAL for an invalid argument, EMSGSIZE for a payload that is too long, EBUSY while traffic is suspended, ENODATA when there is nothing to write, ENOMEM when there is no room, ENOENT for an unknown packet, EEXIST when already active, EPROTO for bytes that are no command, else the error of the system call that failed; a call that is refused leaves the context exactly as it was.", "quantifier": "every history of API calls, every call, all socket, clock and callback results", "why_tests_cant": "Which code is right depends on the state the whole history leads to.", "anchors": ["rmc_pub_context.c", "rmc_pub_packet.c", "rmc_pub_read.c", "rmc_pub_write.c", "rmc_pub_timeout.c", "rmc_sub_context.c", "rmc_sub_packet.c", "rmc_sub_read.c", "rmc_sub_write.c", "rmc_sub_timeout.c"]}
{"id": "C63", "title": "A multicast write makes all the progress the socket allows", "statement": "A call that writes the multicast socket of an active publisher sends waiting packets until none is left or the socket refuses one: exactly as many datagrams leave as the socket took, exactly that many fewer packets wait, and the call returns 0 if none is left and the socket's error otherwise; if the socket takes everything, one call drains the queue.", "quantifier": "every history of API calls, every sequence of socket results", "why_tests_cant": "Liveness over unbounded queues and any mix of results.", "anchors": ["rmc_pub_write.c: rmc_pub_write, process_multicast_write, send_single_multicast_packet", "pub.c: pub_next_queued_packet, pub_packet_sent"]}
{"id": "C64", "title": "Logging is memory safe", "statement": "Whatever is logged, with any level, colour setting, index and message, in any order of calls: the formatting of the index column never overruns its buffer, nothing is written to a file that is not there, and no call crashes. (False when the output file is set back to the null pointer after a message was written with automatic colours: fileno(NULL).)", "quantifier": "every history of calls of the logging API, every index", "why_tests_cant": "Quantifies over all indexes and orders of calls.", "anchors": ["rmc_log.c: rmc_log, rmc_index_str, rmc_log_set_file, rmc_log_set_start_time", "rmc_log.h"]}
{"id": "C65", "title": "What is logged", "statement": "A message is written to the output file exactly if its level is not above the level set (and none of it otherwise), as one line with the time since the start, the place and index and the text, whatever was logged before; colour escapes appear only if colours are on; the microsecond clock never goes back if the system's monotonic clock does not.", "quantifier": "every history of calls of the logging API, every message", "why_tests_cant": "The output depends on settings made anywhere before.", "anchors": ["rmc_log.c", "rmc_log.h", "time.c: rmc_usec_monotonic_timestamp"]}
{"id": "C66", "title": "Creating and deleting contexts", "statement": "Creating a context allocates and initialises it completely or reports an error and leaves nothing behind; it starts out with no connection, nothing queued, nothing open and the documented defaults; deleting it closes everything it had open, frees everything it had allocated, each once, and using any number of contexts one does not disturb another. (False: the array of per-peer records is never freed, and a failed initialisation leaves its allocations behind.)", "quantifier": "every history of creations, calls and deletions of any number of contexts", "why_tests_cant": "Leaks and double frees depend on the history.", "anchors": ["rmc_pub_context.c: rmc_pub_init_context, rmc_pub_delete_context", "rmc_sub_context.c: rmc_sub_init_context, rmc_sub_delete_context"]}
{"id": "C67", "title": "The Wireshark dissector shows what is on the wire", "statement": "Of every datagram the library multicasts the dissector shows exactly the packet id, node id, payload length, control address and port and the payload, and hands the announced port to the TCP dissector; of every TCP segment it shows exactly the complete commands in it, in order, with their fields, and asks for the rest of an incomplete one. (False for a segment from a subscriber that ends within a command: a wrong acknowledgement is shown and the rest is taken for commands.)", "quantifier": "every packet, every sequence of commands, every cutting into segments", "why_tests_cant": "All contents and all cuttings.", "anchors": ["rmc_wireshark_plugin.c: dissect_packet_offset, dissect_rmc_tcp, dissect_rmc_ack_interval, dissect_rmc_ctl_msg, dissect_rmc_packet, get_rmc_packet_len"]}
{"id": "C68", "title": "A publisher and a subscriber are never stuck", "statement": "In every state a publisher and a subscriber with an open connection can get into, whatever multicast lost: once the packets held for resending are overdue there is a schedule of bounded length, made of TCP reads, TCP writes and timeout processing only, that brings every packet multicast since the connection was accepted to the subscriber and leaves nothing held and nothing in the stream, with the connection still open. (False while the subscriber's read buffer holds the beginning of a command behind others already processed: then it may be that every read of the rest, in whatever pieces, ends the connection.)", "quantifier": "every reachable state of the composed system, every answer of the announcement callback", "why_tests_cant": "Possibility of progress from every state: no finite number of runs covers the states.", "anchors": ["rmc_pub_timeout.c", "rmc_pub_write.c", "rmc_sub_read.c: process_cmd_packet, rmc_sub_read", "circular_buffer.c: circ_buf_trim"]}
{"id": "C69", "title": "The reported operation says what the call did", "statement": "The value left in *op_res by a read or write call tells what happened, as documented: RMC_ERROR exactly if the call returns an error, RMC_READ_ACCEPT for an accepted connection, RMC_READ_TCP for data read with the connection still open, RMC_READ_DISCONNECT for a connection that ended, RMC_READ_MULTICAST for a datagram of a publisher whose connection is up, RMC_READ_MULTICAST_NOT_READY for one of a publisher whose connection is being set up, RMC_READ_MULTICAST_NEW for one of a new publisher, RMC_COMPLETE_CONNECTION for a connection completed, RMC_WRITE_MULTICAST and RMC_WRITE_TCP for data written. (False in several cases: a successful read of the publisher's multicast socket assigns nothing, failed multicast writes and failed connection attempts are reported as done, reading an empty multicast socket reports an error and returns 0, new publishers are reported as not ready.)", "quantifier": "every history of API calls, every call, all socket and callback results", "why_tests_cant": "The value depends on the state of the connection the whole history leads to.", "anchors": ["reliable_multicast.h: RMC_ERROR .. RMC_WRITE_TCP", "rmc_pub_read.c", "rmc_pub_write.c: rmc_pub_write", "rmc_sub_read.c", "rmc_sub_write.c: rmc_sub_write", "rmc_protocol.c: rmc_conn_tcp_read, rmc_conn_process_tcp_read"]}
{"id": "C70", "title": "Many publishers and subscribers do not disturb each other", "statement": "With any number of publishers and subscribers sharing a multicast group, connections coming and going: over every connection that is up, a subscriber delivers a contiguous piece of what the publisher at the other end queued, in order and unaltered, and nothing of another publisher; two subscribers of one publisher deliver the packets both of them deliver in the same order and with the same bytes; every packet multicast to a connected subscriber is still held for it, or on its way as a complete frame, or has arrived; a publisher gives a payload back only when this is so for all of its subscribers.", "quantifier": "any number of publishers and subscribers, every interleaving of their API calls, every loss, duplication and reordering of datagrams, every cut of the TCP streams, connections lost and set up again at any point", "why_tests_cant": "Quantifies over the size of the network and over all histories of it.", "anchors": ["rmc_sub_read.c", "rmc_pub_read.c", "rmc_pub_write.c", "rmc_pub_timeout.c", "rmc_connection.c", "pub.c", "sub.c"]}
{"id": "C71", "title": "Every subscriber of a publisher can catch up", "statement": "From every state of a network of publishers and subscribers, once the packets a publisher holds are overdue, some bounded schedule of its timeout processing and writes and of reads at the subscribers, with no multicast at all, brings every subscriber connected to it everything that was multicast to it, and leaves nothing held for any of them. (False for a subscriber whose read buffer is in the state of the trim defect.)", "quantifier": "any number of publishers and subscribers, every reachable state of the network, all times", "why_tests_cant": "Existence of a schedule from every reachable state of every network.", "anchors": ["rmc_pub_timeout.c", "rmc_pub_write.c: rmc_pub_write", "rmc_sub_read.c", "rmc_protocol.c", "circular_buffer.c: circ_buf_trim"]}
{"id": "C72", "title": "Control messages reach the publisher's application, each once, in order", "statement": "A control message that the subscriber library accepts (return code 0) is handed to the control callback of the publisher at the other end with the bytes given, exactly once, and control messages of one subscriber are handed over in the order they were given, however the byte stream is cut up and whatever acknowledgements are in between; when nothing is on its way any more all of them have been handed over.", "quantifier": "every history of a publisher and a subscriber and the connection between them, all contents, every cut of the byte stream", "why_tests_cant": "Ordering and exactly-once over all interleavings and cuts.", "anchors": ["rmc_sub_write.c: rmc_sub_write_control_message_by_address, rmc_sub_write_control_message_by_node_id", "rmc_pub_read.c: process_control_message", "rmc_protocol.c: rmc_conn_tcp_read", "circular_buffer.c"]}
{"id": "C73", "title": "A subscriber that hears an announcement can join", "statement": "From every state of a network of publishers and subscribers, a subscriber with a free connection that is not connected to a publisher can join it whenever the publisher has a free connection and its announcement is due: processing the publisher's timeout and writing its multicast socket puts an announcement on the network; reading it makes the subscriber connect; when both sides have completed the connection it is open and empty, and no other connection of either side, and no other party, has changed. (False for a publisher that is suspended: due announcements are not multicast, and if nobody is subscribed and nothing is pending nobody can ever join.)", "quantifier": "any number of publishers and subscribers, every reachable state of the network, all times and system call results of the calls concerned", "why_tests_cant": "Existence of a schedule from every reachable state of every network.", "anchors": ["rmc_pub_timeout.c: rmc_pub_timeout_process", "rmc_pub_packet.c: rmc_pub_queue_packet", "rmc_pub_write.c: rmc_pub_write", "rmc_sub_read.c: process_multicast_read, rmc_sub_read", "rmc_connection.c: rmc_conn_connect_tcp_by_address, rmc_conn_complete_connection, rmc_conn_process_accept"]}
{"id": "C74", "title": "A subscriber gets everything multicast after it joined", "statement": "Once a subscriber's connection has been accepted, every packet the publisher multicasts is delivered to its application, even if the datagram is lost: the first packet queued after joining, if its datagram is lost, can always be brought to the application over the connection; and when everything has come to rest all packets multicast since joining have been delivered. (The second part is false: several lost packets are resent newest first, and the subscriber takes the first packet that arrives for the beginning and drops the older ones; it delivers what was multicast from the first arrival on.)", "quantifier": "any number of publishers and subscribers, every reachable state of the network, every payload, all times", "why_tests_cant": "All interleavings and all losses; existence of a schedule from every state.", "anchors": ["pub.c: pub_get_timed_out_packets", "rmc_pub_timeout.c: process_subscriber_timeout", "sub.c: sub_packet_received, sub_process_received_packets"]}
{"id": "C75", "title": "A connection carries only what was multicast since it was accepted", "statement": "Every packet that reaches a subscriber over its TCP connection was multicast by that publisher after the publisher had accepted this connection, and what is on its way consists of complete frames of such packets; over a connection the publisher has not accepted nothing comes.", "quantifier": "any number of publishers and subscribers, every interleaving of their API calls, connections lost and set up again in the same slots, every cut of the byte streams", "why_tests_cant": "A stale packet of an earlier connection in the same slot would show only in particular histories.", "anchors": ["pub.c: pub_packet_sent, pub_reset_subscriber", "rmc_pub_timeout.c", "rmc_connection.c: rmc_conn_process_accept, rmc_conn_close_connection"]}
{"id": "C76", "title": "payload_free gets the user data of the context", "statement": "Every call of the payload_free callback of a subscriber is made with the address payload_alloc returned for a packet, the length of that packet and the user data given to rmc_sub_init_context. (False: when a connection is closed, payload_free gets the index of the connection for the packets that still wait.)", "quantifier": "every history of API calls, system call results and callback answers", "why_tests_cant": "Only packets waiting for a missing one at the moment of a close show it.", "anchors": ["reliable_multicast.h: rmc_sub_init_context", "rmc_sub_packet.c: rmc_sub_packet_dispatched", "sub.c: sub_reset_publisher", "rmc_sub_context.c: rmc_sub_close_connection"]}
{"id": "C77", "title": "The accessors tell the truth", "statement": "The node id and the greatest number of connections returned by the accessors are those given at initialisation whatever is called afterwards, there are never more connections than that number, rmc_pub_queue_length is the number of packets and announcements queued and not yet multicast, the TTL can be set exactly while the publisher is active, and index, length and payload of a packet available to the application are those of what arrived and was allocated for it.", "quantifier": "every history", "why_tests_cant": "Holds of every state of every history.", "anchors": ["rmc_pub_context.c: rmc_pub_node_id, rmc_pub_get_max_subscriber_count, rmc_pub_set_multicast_ttl", "rmc_pub_packet.c: rmc_pub_queue_length", "rmc_sub_context.c: rmc_sub_node_id, rmc_sub_get_max_publisher_count", "rmc_sub_packet.c: rmc_sub_packet_index, rmc_sub_packet_payload_len, rmc_sub_packet_payload"]}
{"id": "C78", "title": "The index of a packet identifies the publisher it came from", "statement": "The connection with the index of a packet available to the application leads to the publisher the packet came from. (False once that connection has been closed and the slot used again; true as long as it has not been closed.)", "quantifier": "every history", "why_tests_cant": "Slot reuse while packets are still with the application.", "anchors": ["rmc_sub_packet.c: rmc_sub_packet_index", "rmc_connection.c: rmc_conn_connect_tcp_by_address, rmc_conn_close_connection"]}
{"id": "C79", "title": "The event loop is told the right descriptors", "statement": "Every poll_add, poll_modify and poll_remove call of a publisher carries the descriptor that belongs to its index: a connection, the listen socket and the multicast socket are added once with the descriptor they were opened with, modified and removed only while registered, and only with this descriptor, so that an event loop keyed by descriptor always watches exactly the sockets that are open. (False for the multicast socket if a packet is queued before the context is activated: poll_modify is called for an index that was never added, with descriptor -1.)", "quantifier": "every history of API calls, all system call results", "why_tests_cant": "Descriptors are reused by the system and slots by the library, in an order the history determines.", "anchors": ["reliable_multicast.h: rmc_poll_add_cb_t, rmc_poll_modify_cb_t, rmc_poll_remove_cb_t", "rmc_connection.c", "rmc_pub_context.c: rmc_pub_activate_context, rmc_pub_deactivate_context", "rmc_pub_packet.c: queue_packet", "rmc_pub_read.c", "rmc_pub_write.c", "rmc_pub_timeout.c"]}
{"id": "C80", "title": "Processing timeouts comes to an end", "statement": "When rmc_sub_timeout_process or rmc_pub_timeout_process has processed the timeouts due at a time and returned 0, the next timeout reported is later than that time or there is none, so that the usual loop (process timeouts as long as the next one is due) ends; for the subscriber it ends whatever the calls return. (False for the publisher: an overdue packet behind a newer one that is not overdue is reported as the next timeout, but processing does nothing.)", "quantifier": "every reachable state, all times", "why_tests_cant": "The loop spins only in particular histories.", "anchors": ["rmc_pub_timeout.c: rmc_pub_timeout_process, rmc_pub_timeout_get_next", "rmc_sub_timeout.c: rmc_sub_timeout_process, rmc_sub_timeout_get_next", "rmc_proto_test_sub.c", "rmc_proto_test_pub.c"]}
{"id": "C81", "title": "A subscriber that does not read does not stop resends to the others", "statement": "When timeouts are processed every subscriber with room in its connection's buffer gets the overdue packets it is due, whatever the state of the other subscribers' connections. (False: processing stops at the first subscriber, in the order of their connection, whose buffer has no room, and those after it get nothing, again and again.)", "quantifier": "every reachable state, every number of subscribers, all times", "why_tests_cant": "Depends on which connection is full, and on the order of the connections.", "anchors": ["rmc_pub_timeout.c: rmc_pub_timeout_process, process_subscriber_timeout", "pub.c: pub_get_timed_out_subscribers"]}
{"id": "C82", "title": "Every fair schedule delivers", "statement": "When the publisher multicasts nothing more, and the event loops keep running (in each round, unless there is nothing to do, the publisher processes its timeouts at a time at which everything held is overdue and no announcement is due, writes to each connection that has something buffered and the kernel takes at least a byte, and the subscriber reads if anything is on its way), then after a number of rounds bounded by the bytes outstanding nothing is held for any subscriber, no buffer has anything in it and every packet multicast since the connection was accepted has reached the subscriber, whatever else happens in between, as long as the connection stays up and no protocol error has been reported.", "quantifier": "every reachable state, every fair schedule, every interleaving with other calls, losses, connections coming and going, partial reads and writes", "why_tests_cant": "A statement about all infinite families of schedules; tests can only try some.", "anchors": ["rmc_pub_timeout.c: rmc_pub_timeout_process", "rmc_pub_write.c: rmc_pub_write", "rmc_sub_read.c: rmc_sub_read", "pub.c: pub_get_timed_out_packets", "rmc_protocol.c"]}
{"id": "C83", "title": "A packet goes over a connection at most once", "statement": "While a subscriber stays connected, what the publisher puts on its connection consists of complete frames of packets multicast since it connected, and no packet is put on it twice: a packet is sent to a subscriber at most twice, once by multicast and once over TCP.", "quantifier": "every reachable state, every history of API calls while the connection is open", "why_tests_cant": "Two timeouts, a partial write and an acknowledgement may fall in any order.", "anchors": ["rmc_pub_timeout.c: process_sent_packet_timeout, process_subscriber_timeout", "pub.c: pub_packet_ack", "rmc_pub_write.c: rmc_pub_write"]}
{"id": "C84", "title": "The event loop of the test programs watches what has to be watched", "statement": "With the poll callbacks of the test programs (an epoll instance; calls that do not change the action are ignored; a failing epoll_ctl() ends the program), and an operating system that does not hand out a descriptor that is still open: epoll_ctl() never fails; every connection is registered with its own descriptor and index, for read events once it is set up, and for write events exactly while it is being set up or bytes put on it have not left; closed connections are not registered; the multicast socket is registered as long as it is open, for write events exactly while packets wait to be multicast; the listen socket is registered for read events. (False: a subscriber whose bind() fails keeps a socket no event loop knows of; a publisher that is deactivated with packets queued and activated again never asks for write events again; one that queues a packet before activation ends the program.)", "quantifier": "every reachable state, every history of API calls, every choice of descriptors by the operating system", "why_tests_cant": "Lost wake-ups depend on the whole history of calls, and on which descriptors are reused.", "anchors": ["rmc_proto_test_common.c: poll_add, poll_modify, poll_remove", "rmc_connection.c", "rmc_pub_context.c", "rmc_sub_context.c", "rmc_sub_read.c", "rmc_pub_write.c"]}
{"id": "C85", "title": "The verdict of the self-test is right", "statement": "The test subscriber, given any sequence of payloads made of whole signals, ends the test successfully exactly when the signals so far are, for every expected publisher, the numbers from one to the announced maximum in order and each once; goes on exactly as long as they are a proper beginning of that; and raises the alarm at the first signal that is lost, repeated, out of order, from an unexpected publisher or announces another maximum. It never raises the alarm otherwise, never reports data corruption, and marks all packets it has judged as dispatched but the one that ends the test.", "quantifier": "every set of expected publishers, every sequence of payloads, every interleaving of publishers", "why_tests_cant": "The verdict depends on the whole sequence of signals of all publishers.", "anchors": ["rmc_proto_test_sub.c: process_incoming_signal, process_incoming_packet, check_exit_condition", "rmc_proto_test_common.h: signal_t"]}
{"id": "C86", "title": "The self-test passes over a correct history and only then", "statement": "The test publisher queues the signals from one to the requested number, in order and each once, whole ones in packets the library accepts, all but the last one full. A test subscriber connected to it that is given what the library delivers raises no alarm and ends the test successfully exactly when all packets have been delivered.", "quantifier": "every number of signals, every history of the two ends, the connection and the multicast network", "why_tests_cant": "Every loss, repetition and order of datagrams, reads and timeouts has to be covered.", "anchors": ["rmc_proto_test_pub.c: test_rmc_proto_pub", "rmc_proto_test_sub.c: test_rmc_proto_sub, process_incoming_packet", "rmc_pub_packet.c: rmc_pub_queue_packet", "rmc_sub_packet.c: rmc_sub_get_next_dispatch_ready"]}
{"id": "C87", "title": "Events are handled for the connection they occurred on", "statement": "When the event loop works off the events of one epoll_wait(), each is handled for the socket on whose descriptor it occurred, although calls made for earlier events of the same batch may have closed connections and set up new ones in their slots; connections without an event are left alone; and handling events faults only in reading bytes a peer sent. A connection is given up only if a write on it fails for good.", "quantifier": "every history, every set of events that can be reported, every order of the events, every outcome of the system calls made for them", "why_tests_cant": "A stale index shows only if a slot is reused between two events of one batch, in one order of the events.", "anchors": ["rmc_proto_test_sub.c: process_events, _descriptor", "rmc_proto_test_pub.c: process_events, _descriptor", "rmc_sub_read.c: rmc_sub_read, rmc_sub_close_connection", "rmc_sub_write.c: rmc_sub_write", "rmc_pub_read.c: rmc_pub_read", "rmc_pub_write.c: rmc_pub_write"]}
{"id": "C88", "title": "The event loops wait neither too short nor too long", "statement": "The time for which the test programs' loops tell epoll_wait() to wait is unlimited exactly if there is no timeout, at least one millisecond otherwise, longer than until the next timeout and at most a millisecond longer; so a loop that was woken by the end of the time finds the timeout due and processes it. It fits in an int: the subscriber waits for at most 51 milliseconds, the publisher for at most 4294.97 seconds, if no event is dated in the future.", "quantifier": "all times, every reachable state of a publisher or subscriber", "why_tests_cant": "Rounding errors show only at certain distances between clock and timeout, the bounds depend on the whole history.", "anchors": ["rmc_proto_test_sub.c: process_events", "rmc_proto_test_pub.c: process_events", "rmc_sub_timeout.c: rmc_sub_timeout_get_next", "rmc_pub_timeout.c: rmc_pub_timeout_get_next"]}
{"id": "C89", "title": "The test subscriber judges what the library made ready, all of it and once", "statement": "The main program of the test subscriber - activation, serving timeouts, handling events, taking ready packets, checking and dispatching them - at the end of every number of rounds of its main loop has checked exactly the packets the library made ready so far, each once and in the order in which they were made ready; its verdict is that of the checks run over them (C85); those judged before the last are marked dispatched. It ends with an alarm only if the checks give it, or a call of the library goes wrong. With one publisher that queues the signals of the self-test, connected once, it ends successfully exactly when all packets were delivered, and raises no alarm unless it missed the first packet. In the end no connection and no socket is left.", "quantifier": "every number of rounds, every outcome of the system calls, every report of events, every history of the peers", "why_tests_cant": "The program reacts to all interleavings of datagrams, connections and timeouts.", "anchors": ["rmc_proto_test_sub.c: test_rmc_proto_sub, process_events, process_incoming_packet", "rmc_sub_packet.c: rmc_sub_get_next_dispatch_ready, rmc_sub_packet_dispatched", "rmc_sub_context.c: rmc_sub_activate_context, rmc_sub_deactivate_context"]}
{"id": "C90", "title": "The test publisher queues its signals when the subscribers are there, all of them, in order", "statement": "The main program of the test publisher - activation, waiting for subscribers, queueing the signals packet by packet while handling events and timeouts, waiting for the subscribers to leave - queues nothing before, at one moment, at least the number of subscribers asked for are connected; then it stops announcing and queues the packets of the self-test in order, each once, never with more than 100 packets waiting to be sent (announcements apart), and it is done only when it has queued all of them, nobody is connected any more and the context is deactivated. It stays in a loop only as long as there is a reason: too few subscribers; the time of the next packet has not come, or too many packets wait; a subscriber is connected, or a deadline was past when the round began. The count of subscribers its callbacks keep is at all times the number of connected subscribers. No packet is refused; the program stops early only if activation or setting the time to live fails, or in a call of the library that goes wrong. Together with the test subscriber (C89), connected once: the test ends successfully exactly when all packets were delivered, the publisher having queued all of them by then.", "quantifier": "every number of rounds of each of its loops, every outcome of the system calls, every report of events, every history of the peers", "why_tests_cant": "The program reacts to all interleavings of connections, acknowledgements, events and timeouts.", "anchors": ["rmc_proto_test_pub.c: test_rmc_proto_pub, process_events, queue_test_data, _subscriber_connect_callback, _subscriber_disconnect_callback", "rmc_pub_packet.c: rmc_pub_queue_packet", "rmc_pub_timeout.c: rmc_pub_timeout_process, rmc_pub_timeout_get_next", "rmc_pub_context.c: rmc_pub_activate_context, rmc_pub_deactivate_context, rmc_pub_set_announce_interval"]}
{"id": "C91", "title": "The self-test succeeds in every fair schedule", "statement": "If everything the publisher's application queued was multicast while the subscriber was connected, the first packet to arrive was the first one queued, nothing more is multicast and the event loops keep running as in C82, then after a bounded number of rounds exactly the payloads queued have been delivered, each once, in order - whatever was lost in multicast. With the packets of the self-test this means that the test of the subscriber ends successfully.", "quantifier": "every reachable state, every fair schedule, every interleaving with other calls, losses, partial reads and writes, every number of signals", "why_tests_cant": "A statement about all schedules and all losses; a run of the test programs tries one.", "anchors": ["rmc_proto_test_pub.c: test_rmc_proto_pub", "rmc_proto_test_sub.c: test_rmc_proto_sub, process_incoming_signal", "rmc_pub_timeout.c: rmc_pub_timeout_process", "rmc_pub_write.c: rmc_pub_write", "rmc_sub_read.c: rmc_sub_read", "sub.c: sub_process_received_packets"]}
{"id": "C92", "title": "The options of the test program mean what its usage text says", "statement": "The test program accepts a list of options exactly if all are known, the addresses have less than 80 characters, the nodes expected are from 1 to 1023 and the log level from 0 to 6; otherwise it prints its usage text (for a long address it overruns an array). It starts a subscriber with -S, a publisher otherwise; each argument of it is that of the last option for it or the documented default; the subscriber expects the nodes of its -e options, or node 1. Command lines that fit together make the test end successfully (C91). (False: the number of subscribers -E is also taken for a node that is expected, and has to be from 1 to 1023.)", "quantifier": "every list of options with every argument", "why_tests_cant": "Only a few command lines are ever typed.", "anchors": ["rmc_test.c: main, usage", "rmc_log.c: rmc_set_log_level"]}
{"id": "C93", "title": "Every fair schedule delivers to everybody", "statement": "With any number of publishers and subscribers, connected as they like: if a publisher multicasts nothing more and the event loops of everybody keep running (C82), then after a number of rounds bounded by the bytes that publisher has outstanding, each of its subscribers whose connection was there all along, is still open and has reported no protocol error has received everything that was multicast since it connected, and nothing is held or buffered for any of them. Subscribers that have been connected from the first packet on have been given the same: what was queued, each packet once, in order.", "quantifier": "any number of publishers, subscribers and connections, every reachable state, every fair schedule, every interleaving with other calls, with connections coming and going, losses, partial reads and writes", "why_tests_cant": "A statement about all schedules of any number of programs; a test has a handful of them.", "anchors": ["rmc_pub_timeout.c: rmc_pub_timeout_process", "rmc_pub_write.c: rmc_pub_write", "rmc_sub_read.c: rmc_sub_read", "pub.c: pub_get_timed_out_packets, pub_packet_ack", "sub.c: sub_process_received_packets"]}
{"id": "C94", "title": "The self-test with several publishers ends successfully", "statement": "A test subscriber connected, once to each, to any number of publishers that queue the packets of the self-test gives no alarm if of each publisher it received the first packet first, whatever is lost in multicast and however the packets of the publishers mix; its test ends, and ends successfully, exactly when all packets of all of them have been delivered; and in every fair schedule they are, after a bounded number of rounds, for every one of any number of such subscribers.", "quantifier": "any number of publishers, subscribers and signals, every mixture of the packets of the publishers, every loss, every fair schedule", "why_tests_cant": "The packets of several publishers can mix in more ways than a test can try.", "anchors": ["rmc_proto_test_sub.c: test_rmc_proto_sub, process_incoming_signal, process_incoming_packet, check_exit_condition", "rmc_proto_test_pub.c: test_rmc_proto_pub, queue_test_data", "rmc_sub_read.c: rmc_sub_read", "sub.c: sub_process_received_packets"]}
{"id": "C95", "title": "The unit tests of the project pass", "statement": "Before it looks at its role, rmc_test runs the unit tests of the linked list, the intervals, the circular buffer, the publisher and the subscriber. Every check in them succeeds, nothing faults and every loop ends. The helpers of the buffer test accept every healthy buffer, not only those of the test: check_integrity accepts exactly the true counts (but never returns when the stop index is the size), write_data accepts every write that fits, read_data every read of what is stored (unless it meets the wrong bytes of circ_buf_read_offset, C04).", "quantifier": "whatever the uninitialised local arrays and list headers contain and whatever the monotonic clock shows; for the helpers, every well-formed buffer and every data", "why_tests_cant": "A run of the unit tests shows one content of uninitialised memory and one behaviour of the clock.", "anchors": ["rmc_test.c: main", "list_test.c: run_list_tests", "sub_interval_test.c: test_packet_interval", "circular_buffer_test.c: check_integrity, read_data, write_data, test_circular_buffer", "pub_test.c: test_pub", "sub_test.c: test_sub"]}
{"id": "C96", "title": "Both programs only fall asleep when everything is delivered", "statement": "The test programs sleep in epoll_wait() until a socket they registered is ready or the time the library gave them has come. With any number of publishers and subscribers: whenever neither of two connected programs has anything to wake up for - no socket registered for writing, no connection waiting to be accepted or bytes to be read on a socket registered for reading, no timer set that is due by the time anything has to be sent again or acknowledged - everything is delivered: all packets given to the publisher are multicast, none is held or buffered for any subscriber, nothing is on its way or pending acknowledgement, and the subscriber has every packet multicast since it was accepted, and has delivered all from the first it received on. (The publisher's context must be activated and deactivated in turn, and not activated with packets left to be sent: then a wake-up is lost, C84.)", "quantifier": "any number of publishers and subscribers, every reachable state, every history of calls, losses, partial reads and writes", "why_tests_cant": "A lost wake-up needs a particular interleaving, and shows as a test that hangs, now and then.", "anchors": ["rmc_proto_test_common.c: poll_add, poll_modify, poll_remove", "rmc_pub_timeout.c: rmc_pub_timeout_get_next", "rmc_sub_timeout.c: rmc_sub_timeout_get_next", "rmc_pub_write.c: rmc_pub_write, rmc_pub_resend_packet", "rmc_pub_packet.c: rmc_pub_queue_packet", "rmc_sub_write.c: rmc_sub_write_interval_acknowledgement", "rmc_sub_timeout.c: rmc_sub_timeout_process", "rmc_connection.c: rmc_conn_complete_connection, rmc_conn_process_accept"]}
{"id": "C97", "title": "The self-test does not fall asleep before its end", "statement": "With any number of publishers and subscribers running the self-test, whatever multicast loses and however calls are interleaved: when a test subscriber and the publishers it is connected to have nothing to wake up for (C96), all packets of the self-test were multicast while it was connected, and the first packet of each publisher to reach it was the first one, it has been given exactly the packets of its publishers, of each one all, in order; its checks run over them end the test successfully, and so does its program, as soon as it has looked at them. So a self-test that hangs has been started wrongly (a subscriber came late, or a first packet was lost, C71); the programs have not lost a wake-up.", "quantifier": "any number of publishers and subscribers, any signal counts, every history of calls, losses, partial reads and writes, every reachable state in which the programs sleep", "why_tests_cant": "A lost wake-up needs a particular interleaving; a test can only time out.", "anchors": ["rmc_proto_test_sub.c: process_incoming_signal, packet_ready_callback, test_rmc_proto_sub", "rmc_proto_test_pub.c: test_rmc_proto_pub", "rmc_proto_test_common.c: poll_add, poll_modify, poll_remove", "rmc_sub_read.c: rmc_sub_read", "rmc_pub_timeout.c: rmc_pub_timeout_process", "rmc_sub_timeout.c: rmc_sub_timeout_process"]}
{"id": "C98", "title": "The self-test gives every subscriber that was there from the start everything", "statement": "Whoever is connected to a publisher and is not disconnected again is sent everything that is queued from then on and multicast. A test publisher that has lost no subscriber, and has no more of them than it was told to wait for (-e), has therefore sent all its packets to each of them. So for the whole self-test, with any number of publishers and subscribers and whatever multicast loses: when the publishers have queued their signals and wait for their subscribers to leave, none having lost one or having more than it waited for, and a test subscriber is connected once to each of the publishers it expects, the first packet of each to arrive being the first, and none of these programs has anything to wake up for, then the subscriber has been given exactly the packets of its publishers, of each one all, in order; its checks over them end the test successfully; and so does its program, as soon as it has looked at them.", "quantifier": "any number of publishers and subscribers, any signal counts, every history of calls, losses, partial reads and writes, every reachable state", "why_tests_cant": "The test that this describes is the project's own system test: one run of it shows one interleaving.", "anchors": ["rmc_proto_test_pub.c: test_rmc_proto_pub, queue_test_data", "rmc_proto_test_sub.c: process_incoming_signal, packet_ready_callback, test_rmc_proto_sub", "rmc_pub_context.c: rmc_pub_get_subscriber_count", "pub.c: pub_packet_sent", "rmc_pub_read.c: rmc_pub_read", "rmc_connection.c: rmc_conn_get_active_connection_count"]}
{"id": "C99", "title": "What a connection that breaks off has delivered", "statement": "If the TCP connection between a publisher and a subscriber breaks off - the publisher closes it, deactivates, or the network drops it, at any moment and anywhere in the byte stream, also inside a packet - then, whatever both sides go on to do (multicast keeps coming in, and the bytes still in flight are read), the payloads the connection delivers to the subscriber's application up to its end are a contiguous piece of the sequence of payloads the publisher's application queued, in that order, byte for byte; reading the end of the stream or closing delivers nothing more.", "quantifier": "every execution of the composed system up to the break, every number of bytes still arriving, every history of both sides after it", "why_tests_cant": "Crash points in a byte stream combined with every history before and after cannot be enumerated.", "anchors": ["rmc_sub_read.c", "rmc_protocol.c", "rmc_connection.c", "rmc_pub_context.c", "sub.c"]}
{"id": "C100", "title": "The statistics of the self-test subscriber", "statement": "When all signals of a publisher have come in, rmc_test -S prints, once for each publisher, the number of its signals, the time from the first to the last of them and the quotient of the two, as an int; the clock has no influence on the verdict of the test, and computing the statistics never runs into undefined behaviour.", "quantifier": "every sequence of signals of any number of publishers and all readings of the clock", "why_tests_cant": "Quantifies over all readings of the clock; that the whole test can happen within a microsecond does not show in tests.", "anchors": ["rmc_proto_test_sub.c"]}
{"id": "C101", "title": "A subscriber that connects again gets nothing twice", "statement": "When a connection to a publisher has broken off and the subscriber connects to the same publisher again, every packet delivered over the new connection has a larger id than every packet delivered over the old one: no packet is delivered to the application a second time, and none out of order.", "quantifier": "every first connection, every place in its byte stream and every time at which it breaks off, all calls of both sides in between, and every history of the second connection", "why_tests_cant": "Depends on when datagrams of before come in, on where the connection breaks and on what both sides do in between; unit tests have no network.", "anchors": ["rmc_sub_read.c:process_multicast_read", "rmc_sub_write.c:rmc_sub_write", "rmc_connection.c", "sub.c:sub_packet_received", "sub.c:sub_process_received_packets"]}
{"id": "C102", "title": "Connecting again loses nothing", "statement": "When a connection to a publisher has broken off and the subscriber connects to the same publisher again, and no datagram of before comes in late, there is no gap in what the application gets over the two connections: every packet multicast between a packet of the first connection and a packet of the second is delivered over one of them.", "quantifier": "every first connection, every place in its byte stream and every time at which it breaks off, all calls of both sides in between, and every history of the second connection in which no datagram carries a packet multicast before", "why_tests_cant": "Depends on what is multicast and lost before, during and after the break; unit tests have no network.", "anchors": ["rmc_sub_read.c:process_multicast_read", "rmc_sub_write.c:rmc_sub_write", "rmc_connection.c", "pub.c:pub_reset_subscriber", "sub.c:sub_reset_publisher", "sub.c:sub_process_received_packets"]}
