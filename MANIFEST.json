{
 "claims": [
  {
   "property": "C01",
   "status": "proved",
   "theorems": [
    "Rmc.CircBuf.C01_reachable_wf",
    "Rmc.CircBuf.C01_accounting",
    "Rmc.CircBuf.C01_counts"
   ],
   "note": "all sizes up to 2^31, all index positions"
  },
  {
   "property": "C02",
   "status": "proved",
   "theorems": [
    "Rmc.CircBuf.C02_fifo",
    "Rmc.CircBuf.step_refines",
    "Rmc.CircBuf.run_refines"
   ],
   "note": "refinement of a list-of-bytes queue for every history; run_refines also covers trims and offset reads in their safe class"
  },
  {
   "property": "C03",
   "status": "proved",
   "theorems": [
    "Rmc.CircBuf.C03_alloc"
   ],
   "note": ""
  },
  {
   "property": "C04",
   "status": "partial",
   "theorems": [
    "Rmc.CircBuf.C04_readOffset_partial",
    "Rmc.CircBuf.C04_library_offsets",
    "Rmc.CircBuf.C04_exact",
    "Rmc.CircBuf.C04_false"
   ],
   "note": "False of the code in general (C04_false, reachable witness); C04_exact characterises exactly when it holds; offsets 0 and 1 are always right"
  },
  {
   "property": "C05",
   "status": "partial",
   "theorems": [
    "Rmc.CircBuf.C05_trim_partial",
    "Rmc.CircBuf.C05_exact",
    "Rmc.CircBuf.C05_unwrapped_safe",
    "Rmc.CircBuf.C05_false"
   ],
   "note": "False of the code in general (uint32 underflow, C05_false); C05_exact gives the exact class"
  },
  {
   "property": "C06",
   "status": "proved",
   "theorems": [
    "Rmc.CircBuf.C06_readSegment"
   ],
   "note": ""
  },
  {
   "property": "C07",
   "status": "partial",
   "theorems": [
    "Rmc.CircBuf.C07_in_bounds",
    "Rmc.CircBuf.C07_fill_in_bounds",
    "Rmc.CircBuf.C07_history_partial",
    "Rmc.CircBuf.C07_false"
   ],
   "note": "holds for every well-formed state; a trim outside the safe class leaves the well-formed states and then memory outside the array is accessed (C05_false)"
  },
  {
   "property": "C08",
   "status": "proved",
   "theorems": [
    "Rmc.PtrList.C08_step",
    "Rmc.PtrList.C08_history",
    "Rmc.PtrList.C08_well_linked"
   ],
   "note": "simulation of a sequence-level specification by the pointer code, any number of lists, any history; malloc assumed to succeed, element count unbounded"
  },
  {
   "property": "C09",
   "status": "proved",
   "theorems": [
    "Rmc.PtrList.C09_insertSorted",
    "Rmc.PtrList.C09_insertSortedRev",
    "Rmc.PtrList.C09_find",
    "Rmc.PtrList.C09_find_sorted_rev"
   ],
   "note": "at pointer level, for every comparator of the shapes the library uses"
  },
  {
   "property": "C10",
   "status": "proved",
   "theorems": [
    "Rmc.C10_header_roundtrip",
    "Rmc.C10_ack_roundtrip",
    "Rmc.C10_ctl_roundtrip",
    "Rmc.C10_injective",
    "Rmc.C10_header_surjective"
   ],
   "note": "little-endian byte lists; all field values"
  },
  {
   "property": "C12",
   "status": "partial",
   "theorems": [
    "Rmc.Proto.C12_chunking_partial",
    "Rmc.Proto.C12_independent_partial",
    "Rmc.Proto.C12_boundaries_safe",
    "Rmc.PubCtx.C12_publisher_partial",
    "Rmc.PubCtx.C12_false",
    "Rmc.SubCtx.C12_subscriber_partial",
    "Rmc.SubCtx.C12_resent_partial",
    "Rmc.SubCtx.C12_subscriber_false"
   ],
   "note": "holds for every chunking in which no read hits the trim defect (C05); false in general: C12_false delivers a control message twice, C12_subscriber_false delivers a packet without its payload"
  },
  {
   "property": "C13",
   "status": "partial",
   "theorems": [
    "Rmc.Proto.C13_fifo_out",
    "Rmc.Proto.C13_report",
    "Rmc.Proto.C13_cmd_oob"
   ],
   "note": "false when a command is added while the buffer's end index equals its size: the command byte is then written out of bounds (C13_cmd_oob)"
  },
  {
   "property": "C14",
   "status": "partial",
   "theorems": [
    "Rmc.Proto.C14_unknown_partial",
    "Rmc.Proto.C14_incomplete_partial",
    "Rmc.PubCtx.C14_false",
    "Rmc.PubCtx.C14_publisher_unknown_partial",
    "Rmc.PubCtx.C14_publisher_incomplete_partial",
    "Rmc.SubCtx.C14_subscriber_unknown_partial",
    "Rmc.SubCtx.C12_subscriber_partial"
   ],
   "note": "for every read outside the trim defect (C05); false otherwise (C14_false)"
  },
  {
   "property": "C16",
   "status": "proved",
   "theorems": [
    "Rmc.C16_ids",
    "Rmc.C16_returned",
    "Rmc.PubCtx.C16_api"
   ],
   "note": "every history with fewer than 2^64 queued packets"
  },
  {
   "property": "C17",
   "status": "proved",
   "theorems": [
    "Rmc.C17_order",
    "Rmc.C17_announcements_first",
    "Rmc.C17_progress"
   ],
   "note": ""
  },
  {
   "property": "C18",
   "status": "proved",
   "theorems": [
    "Rmc.C18_free_safe",
    "Rmc.C18_free_once"
   ],
   "note": ""
  },
  {
   "property": "C19",
   "status": "partial",
   "theorems": [
    "Rmc.C19_released_partial",
    "Rmc.C19_count",
    "Rmc.C19_false"
   ],
   "note": "false for packets multicast while nobody is connected: never released (C19_false)"
  },
  {
   "property": "C20",
   "status": "proved",
   "theorems": [
    "Rmc.C20_safe"
   ],
   "note": ""
  },
  {
   "property": "C21",
   "status": "proved",
   "theorems": [
    "Rmc.C21_no_effect"
   ],
   "note": ""
  },
  {
   "property": "C22",
   "status": "proved",
   "theorems": [
    "Rmc.C22_single",
    "Rmc.PubCtx.C22_interval",
    "Rmc.PubCtx.C22_diverges"
   ],
   "note": "every interval with last < 2^64-1 after every history of the publisher context; the remaining one never returns (C22_diverges)"
  },
  {
   "property": "C11",
   "status": "proved",
   "theorems": [
    "Rmc.PubCtx.C11_reject",
    "Rmc.PubCtx.C11_fits",
    "Rmc.PubCtx.C11_send",
    "Rmc.PubCtx.C11_resend"
   ],
   "note": ""
  },
  {
   "property": "C15",
   "status": "partial",
   "theorems": [
    "Rmc.PubCtx.C15_publisher_partial",
    "Rmc.PubCtx.C15_eof",
    "Rmc.PubCtx.C15_hang",
    "Rmc.PubCtx.C15_uninit",
    "Rmc.PubCtx.C15_oob",
    "Rmc.SubCtx.C15_subscriber_partial",
    "Rmc.SubCtx.C15_subscriber_eof"
   ],
   "note": "publisher: false (C15_hang, C15_uninit, C15_oob); proved for every byte stream without the hostile commands and outside the trim defect; subscriber: proved for every byte stream outside the trim defect"
  },
  {
   "property": "C52",
   "status": "proved",
   "theorems": [
    "Rmc.PubCtx.C52_publisher_faults"
   ],
   "note": ""
  },
  {
   "property": "C23",
   "status": "proved",
   "theorems": [
    "Rmc.C23_outstanding",
    "Rmc.C23_owed_rules"
   ],
   "note": ""
  },
  {
   "property": "C24",
   "status": "proved",
   "theorems": [
    "Rmc.C24_close"
   ],
   "note": ""
  },
  {
   "property": "C45",
   "status": "partial",
   "theorems": [
    "Rmc.ConnVec.C45_slots_partial",
    "Rmc.ConnVec.C45_enomem_partial",
    "Rmc.ConnVec.C45_max_close",
    "Rmc.ConnVec.C45_false"
   ],
   "note": "Proved for every history and all results of the socket calls except setsockopt(TCP_NODELAY) failing on an accepted connection, where the code closes the wrong slot: refuted by C45_false."
  },
  {
   "property": "C46",
   "status": "partial",
   "theorems": [
    "Rmc.ConnVec.C46_address_partial",
    "Rmc.ConnVec.C46_node_id",
    "Rmc.ConnVec.C46_index_partial",
    "Rmc.ConnVec.C46_false"
   ],
   "note": "Full for the subscriber (which only connects). Publisher histories exclude the failing setsockopt of C45_false, where the lookup fails (C46_false)."
  },
  {
   "property": "C47",
   "status": "proved",
   "theorems": [
    "Rmc.ConnVec.C47_clean"
   ],
   "note": "Buffers, for every history. That no packets are owed by a new subscriber is C23_outstanding; the subscriber's record of a publisher is re-initialised on connection (SubPub.init)."
  },
  {
   "property": "C25",
   "status": "partial",
   "theorems": [
    "Rmc.PubCtx.C25_busy",
    "Rmc.PubCtx.C25_suspend",
    "Rmc.PubCtx.C25_suspend_at",
    "Rmc.PubCtx.C25_resume_safe",
    "Rmc.PubCtx.C25_resume_partial",
    "Rmc.PubCtx.C25_resume_timeout_partial",
    "Rmc.PubCtx.C25_stuck",
    "Rmc.PubCtx.C25_false",
    "Rmc.PubCtx.C25_thresholds",
    "Rmc.PubCtx.C25_off"
   ],
   "note": "suspension, refusal and resumption by acknowledgements are exact; false when the count drops because a subscriber is closed: nothing ever resumes the publisher (C25_stuck, C25_false)"
  },
  {
   "property": "C26",
   "status": "partial",
   "theorems": [
    "Rmc.PubCtx.C26_exact",
    "Rmc.PubCtx.C26_all_or_none_partial",
    "Rmc.PubCtx.C26_partial_failure",
    "Rmc.PubCtx.C26_false"
   ],
   "note": "exact characterisation of what timeout processing resends, for every history; the claim as stated is false (C26_false): the scan starts at the newest packet"
  },
  {
   "property": "C27",
   "status": "proved",
   "theorems": [
    "Rmc.PubCtx.C27_next",
    "Rmc.PubCtx.resendTimeout_const"
   ],
   "note": "under a clock that does not go backwards and non-negative times"
  },
  {
   "property": "C30",
   "status": "proved",
   "theorems": [
    "Rmc.PubCtx.C30_fires",
    "Rmc.PubCtx.C30_silent",
    "Rmc.PubCtx.C30_rate",
    "Rmc.PubCtx.C30_off"
   ],
   "note": ""
  },
  {
   "property": "C28",
   "status": "partial",
   "theorems": [
    "Rmc.PubCtx.C28_exact_partial",
    "Rmc.PubCtx.C28_false"
   ],
   "note": "exact formula for every history; the third number counts a packet once per subscriber, so the claim as stated is false (C28_false)"
  },
  {
   "property": "C29",
   "status": "partial",
   "theorems": [
    "Rmc.PubCtx.C29_resend_partial",
    "Rmc.PubCtx.C29_oob",
    "Rmc.PubCtx.C29_decodable"
   ],
   "note": "false when the write position is at the very end of the buffer (C29_oob)"
  },
  {
   "property": "C31",
   "status": "partial",
   "theorems": [
    "Rmc.PubCtx.C31_supplied_partial",
    "Rmc.PubCtx.C31_intact_partial",
    "Rmc.PubCtx.C31_false"
   ],
   "note": "false: the bytes come from a dead stack frame (C31_false)"
  },
  {
   "property": "C32",
   "status": "partial",
   "theorems": [
    "Rmc.PubCtx.C32_exact_partial",
    "Rmc.PubCtx.C32_false"
   ],
   "note": "exact characterisation; false for packets still queued or sent while nobody was connected (C32_false)"
  },
  {
   "property": "C53",
   "status": "proved",
   "theorems": [
    "Rmc.PubCtx.C53_datagrams"
   ],
   "note": ""
  },
  {
   "property": "C33",
   "status": "proved",
   "theorems": [
    "Rmc.SubPub.C33_in_order",
    "Rmc.SubPub.C33_prefix",
    "Rmc.SubPub.C33_pid_zero_false",
    "Rmc.SubCtx.C33_api",
    "Rmc.SubCtx.C33_ready_list"
   ],
   "note": "for packet ids a publisher assigns (C16); a peer that resends packet id 0 over TCP breaks it (C33_pid_zero_false)"
  },
  {
   "property": "C34",
   "status": "proved",
   "theorems": [
    "Rmc.SubPub.C34_payload",
    "Rmc.SubCtx.C34_api",
    "Rmc.SubCtx.C34_datagram",
    "Rmc.SubCtx.C34_accepted",
    "Rmc.SubCtx.C34_batch"
   ],
   "note": ""
  },
  {
   "property": "C35",
   "status": "proved",
   "theorems": [
    "Rmc.SubPub.C35_duplicate",
    "Rmc.SubCtx.C35_api",
    "Rmc.SubCtx.C35_datagram"
   ],
   "note": ""
  },
  {
   "property": "C36",
   "status": "partial",
   "theorems": [
    "Rmc.SubPub.C36_delivered_partial",
    "Rmc.SubPub.C36_older_dropped",
    "Rmc.SubPub.C36_false",
    "Rmc.SubCtx.C36_api_partial"
   ],
   "note": "exact characterisation of what is delivered; false for packets overtaken by the first arrival (C36_false)"
  },
  {
   "property": "C37",
   "status": "proved",
   "theorems": [
    "Rmc.SubPub.C37_intervals",
    "Rmc.SubPub.C37_timestamps",
    "Rmc.SubCtx.C37_api"
   ],
   "note": "timestamps under a clock that does not go backwards"
  },
  {
   "property": "C38",
   "status": "proved",
   "theorems": [
    "Rmc.SubPub.C38_core",
    "Rmc.SubCtx.C38_api",
    "Rmc.SubCtx.C38_taken",
    "Rmc.SubCtx.C38_stream"
   ],
   "note": ""
  },
  {
   "property": "C39",
   "status": "partial",
   "theorems": [
    "Rmc.SubCtx.C39_partial",
    "Rmc.SubCtx.C39_quiet_partial",
    "Rmc.SubCtx.C39_late_false",
    "Rmc.SubCtx.C39_lost",
    "Rmc.SubCtx.C39_lost_false"
   ],
   "note": "proved under the exact condition the code checks; false in general (C39_late_false: only the first interval's age is looked at; C39_lost_false: lost when the write buffer is full)"
  },
  {
   "property": "C40",
   "status": "partial",
   "theorems": [
    "Rmc.SubCtx.C40_returns",
    "Rmc.SubCtx.C40_none_partial",
    "Rmc.SubCtx.C40_single_partial",
    "Rmc.SubCtx.C40_false",
    "Rmc.SubCtx.C40_stale_false"
   ],
   "note": "what is returned is characterised exactly; the claim is false with several publishers (C40_false) and after a close (C40_stale_false)"
  },
  {
   "property": "C41",
   "status": "partial",
   "theorems": [
    "Rmc.SubCtx.C41_once_partial",
    "Rmc.SubCtx.C41_ready_live",
    "Rmc.SubCtx.C41_none_lost_partial",
    "Rmc.SubCtx.C41_deactivated_partial",
    "Rmc.SubCtx.C41_false"
   ],
   "note": "at most once: proved for every history; released on shutdown: proved if the ready list is empty then, false otherwise (C41_false)"
  },
  {
   "property": "C42",
   "status": "proved",
   "theorems": [
    "Rmc.SubCtx.C42_dispatched",
    "Rmc.SubCtx.C42_unknown",
    "Rmc.SubCtx.C42_once",
    "Rmc.SubCtx.C42_count"
   ],
   "note": ""
  },
  {
   "property": "C43",
   "status": "partial",
   "theorems": [
    "Rmc.SubCtx.C43_opens",
    "Rmc.SubCtx.C43_other_calls",
    "Rmc.SubCtx.C43_subscribed",
    "Rmc.SubCtx.C43_veto",
    "Rmc.SubCtx.C43_accepted",
    "Rmc.SubCtx.C43_unique_partial",
    "Rmc.SubCtx.C43_false"
   ],
   "note": "what each announcement does is exact; uniqueness holds unless an announcement comes in while the connection is being set up (C43_false)"
  },
  {
   "property": "C44",
   "status": "partial",
   "theorems": [
    "Rmc.SubCtx.C44_close_partial",
    "Rmc.SubCtx.C44_deactivate_partial",
    "Rmc.SubCtx.C44_false",
    "Rmc.SubCtx.close_fault"
   ],
   "note": "exact conditions; false for a connection still being set up (C44_false)"
  },
  {
   "property": "C48",
   "status": "partial",
   "theorems": [
    "Rmc.PubCtx.C48_connections",
    "Rmc.PubCtx.C48_mcast_partial",
    "Rmc.PubCtx.C48_mcast_false",
    "Rmc.PubCtx.C48_mcast_queue",
    "Rmc.PubCtx.C48_mcast_write",
    "Rmc.SubCtx.C48_sub_registered",
    "Rmc.SubCtx.C48_sub_pending_partial",
    "Rmc.SubCtx.C48_sub_false",
    "Rmc.SubCtx.C48_sub_remove_false"
   ],
   "note": "publisher connections: proved (read interest always, write interest exactly while bytes are pending); multicast socket of the publisher: false in general (C48_mcast_false), proved for histories without reactivation and reads of that socket; subscriber: what is asked for never exceeds what is needed, and is exact without reads; false after a read (C48_sub_false) and when setting up fails (C48_sub_remove_false)"
  },
  {
   "property": "C54",
   "status": "partial",
   "theorems": [
    "Rmc.SubCtx.C54_partial",
    "Rmc.SubCtx.C54_cases",
    "Rmc.SubCtx.C54_refused",
    "Rmc.SubCtx.C54_routed",
    "Rmc.SubCtx.C54_false",
    "Rmc.SubCtx.C54_oob_false"
   ],
   "note": "all cases characterised (C54_cases); false when the message wraps around the end of the write buffer (C54_false, C54_oob_false)"
  },
  {
   "property": "C55",
   "status": "proved",
   "theorems": [
    "Rmc.SubCtx.C55_no_fault",
    "Rmc.SubCtx.C55_read",
    "Rmc.SubCtx.C55_timeout",
    "Rmc.SubCtx.C55_timeout_oob",
    "Rmc.SubCtx.C55_timeout_start",
    "Rmc.SubCtx.C55_ctl",
    "Rmc.SubCtx.close_fault",
    "Rmc.SubCtx.C15_subscriber_partial",
    "Rmc.SubCtx.C15_subscriber_eof"
   ],
   "note": "every call; the exceptions are characterised by C55_read, C55_timeout, C55_ctl and close_fault"
  },
  {
   "property": "C59",
   "status": "proved",
   "theorems": [
    "Rmc.SubCtx.C59_stream",
    "Rmc.SubCtx.C59_start",
    "Rmc.SubCtx.C59_packets",
    "Rmc.SubCtx.C59_closes"
   ],
   "note": ""
  },
  {
   "property": "C60",
   "status": "proved",
   "theorems": [
    "Rmc.PubCtx.C60_acks"
   ],
   "note": ""
  },
  {
   "property": "C56",
   "status": "proved",
   "theorems": [
    "Rmc.PubCtx.C56_publisher",
    "Rmc.SubCtx.C56_subscriber"
   ],
   "note": ""
  },
  {
   "property": "C57",
   "status": "proved",
   "theorems": [
    "Rmc.SubCtx.C57_callback"
   ],
   "note": ""
  },
  {
   "property": "C58",
   "status": "proved",
   "theorems": [
    "Rmc.PubCtx.C58_disconnect",
    "Rmc.PubCtx.C58_connect",
    "Rmc.PubCtx.C58_balance"
   ],
   "note": ""
  },
  {
   "property": "C49",
   "status": "proved",
   "theorems": [
    "Rmc.Sys.C49_end_to_end"
   ],
   "note": "composed system: publisher + subscriber contexts, lossy/duplicating/reordering multicast, TCP cut into arbitrary reads, any other connections; until one side or the network closes the connection"
  },
  {
   "property": "C50",
   "status": "proved",
   "theorems": [
    "Rmc.Sys.C50_nothing_lost",
    "Rmc.Sys.C50_released"
   ],
   "note": "composed system; hypothesis: no publisher read from the connection returned EPROTO (the trim defect, C12, then leaves a spoilt buffer)"
  },
  {
   "property": "C51",
   "status": "partial",
   "theorems": [
    "Rmc.Sys.C51_false",
    "Rmc.Sys.C51_drained_partial",
    "Rmc.Sys.C51_rest_partial"
   ],
   "note": "false of the code: packets multicast before the publisher accepts the connection are never resent although they can set the subscriber's base, so later packets may wait for ever; proved for every schedule: after a successful timeout call at which everything held is overdue, as soon as the stream is drained everything multicast before it has arrived, and is delivered if the first packet received was multicast after the accept (C51_drained_partial); when nothing is held and nothing is in the stream, everything multicast since the accept has arrived, and is delivered up to the first gap of earlier packets"
  },
  {
   "property": "C61",
   "status": "partial",
   "theorems": [
    "Rmc.PubCtx.C61_publisher_held",
    "Rmc.PubCtx.C61_publisher_partial",
    "Rmc.PubCtx.C61_publisher_deactivated",
    "Rmc.PubCtx.C61_publisher_false",
    "Rmc.SubCtx.C61_subscriber",
    "Rmc.SubCtx.C61_subscriber_deactivated"
   ],
   "note": "subscriber: proved for every history; publisher: nothing is closed twice and nothing held is closed for every history, nothing leaks if it is activated only while inactive; false otherwise (C61_publisher_false)"
  },
  {
   "property": "C62",
   "status": "proved",
   "theorems": [
    "Rmc.PubCtx.C62_publisher",
    "Rmc.PubCtx.C62_pending",
    "Rmc.SubCtx.C62_subscriber"
   ],
   "note": "all calls; `Code` is the table of codes. Hypotheses: a failing system call sets errno, setsockopt(TCP_NODELAY) on an accepted socket does not fail (C45_false)"
  },
  {
   "property": "C63",
   "status": "proved",
   "theorems": [
    "Rmc.PubCtx.C63_write",
    "Rmc.PubCtx.C63_drains"
   ],
   "note": ""
  },
  {
   "property": "C64",
   "status": "partial",
   "theorems": [
    "Rmc.Log.C64_index_fits",
    "Rmc.Log.C64_no_fault",
    "Rmc.Log.C64_null_false"
   ],
   "note": "proved for histories that never set a null output file; false otherwise (C64_null_false)"
  },
  {
   "property": "C65",
   "status": "proved",
   "theorems": [
    "Rmc.Log.C65_message",
    "Rmc.Log.C65_level",
    "Rmc.C65_clock",
    "Rmc.C65_clock_exact"
   ],
   "note": "the text of the formatted message is a parameter (vfprintf is not modelled)"
  },
  {
   "property": "C66",
   "status": "partial",
   "theorems": [
    "Rmc.Life.C66_blocks_partial",
    "Rmc.Life.C66_create",
    "Rmc.Life.C66_create_args",
    "Rmc.Life.C66_isolated",
    "Rmc.Life.C66_many_publishers",
    "Rmc.Life.C66_many_subscribers",
    "Rmc.Life.C66_new_publisher",
    "Rmc.Life.C66_new_subscriber",
    "Rmc.Life.C66_delete",
    "Rmc.Life.C66_delete_publisher",
    "Rmc.Life.C66_delete_subscriber_partial",
    "Rmc.Life.C66_false"
   ],
   "note": "false: the array of records is never freed and a failed creation leaves its blocks (C66_false); everything else is proved, for the subscriber's deletion unless a connection is being set up (C44)"
  },
  {
   "property": "C67",
   "status": "partial",
   "theorems": [
    "Rmc.Dissect.C67_datagram",
    "Rmc.Dissect.C67_commands_partial",
    "Rmc.Dissect.C67_cut",
    "Rmc.Dissect.C67_unknown",
    "Rmc.Dissect.C67_resent",
    "Rmc.Dissect.C67_false"
   ],
   "note": "datagrams and the direction from publisher to subscriber: proved for every cutting; from subscriber to publisher: proved for segments of whole commands, false otherwise (C67_false; C67_cut and C67_unknown say exactly what is shown then). tcp_dissect_pdus of Wireshark is modelled by its documentation"
  },
  {
   "property": "C68",
   "status": "partial",
   "theorems": [
    "Rmc.Sys.C68_recovers_partial",
    "Rmc.Sys.C68_empty",
    "Rmc.Sys.C68_false"
   ],
   "note": "proved from every reachable state in which the subscriber's read buffer is at its start position (empty, or holding the beginning of the first command since it was last empty) and the publisher has not reported a protocol error; false without that (C68_false)"
  },
  {
   "property": "C69",
   "status": "partial",
   "theorems": [
    "Rmc.PubCtx.C69_publisher",
    "Rmc.PubCtx.C69_false",
    "Rmc.SubCtx.C69_subscriber",
    "Rmc.SubCtx.C69_false",
    "Rmc.C69_numbers"
   ],
   "note": "the value is characterised exactly for every call (C69_publisher, C69_subscriber); it is not the documented one in the cases of the two C69_false theorems"
  },
  {
   "property": "C70",
   "status": "proved",
   "theorems": [
    "Rmc.Net.C70_delivery",
    "Rmc.Net.C70_agree",
    "Rmc.Net.C70_nothing_lost",
    "Rmc.Net.C70_released"
   ],
   "note": "the network of Net.lean: any number of publishers and subscribers; nothing is claimed of links on which the publisher has seen a protocol error (nothing_lost, released)"
  },
  {
   "property": "C71",
   "status": "partial",
   "theorems": [
    "Rmc.Net.C71_recovers_partial",
    "Rmc.Net.C71_false"
   ],
   "note": "the schedule exists for all subscribers whose read buffer starts at position 0 (in particular when it is empty); C71_false: without this the trim defect makes every read end the connection"
  },
  {
   "property": "C72",
   "status": "partial",
   "theorems": [
    "Rmc.Sys.C72_controls_partial",
    "Rmc.Sys.C72_all_partial",
    "Rmc.Sys.C72_false"
   ],
   "note": "proved for every history in which the publisher's reads stay clear of the last five bytes of its receive buffer, the callback is set and no protocol error is reported; C72_false: otherwise the callback can be called twice for one message; that the bytes put on are those given: see C54"
  },
  {
   "property": "C73",
   "status": "partial",
   "theorems": [
    "Rmc.Net.C73_join_partial",
    "Rmc.PubCtx.C73_mute_false"
   ],
   "note": "proved for publishers that are not suspended, unless one of the callbacks refuses or a system call fails; C73_mute_false: a suspended publisher with nobody subscribed and nothing pending never multicasts again"
  },
  {
   "property": "C74",
   "status": "partial",
   "theorems": [
    "Rmc.Net.C74_first_partial",
    "Rmc.Net.C74_rest_partial",
    "Rmc.Net.C74_false"
   ],
   "note": "proved: the first packet after joining; at rest, everything from the first arrival on. C74_false: two lost packets are resent newest first and the older one is dropped"
  },
  {
   "property": "C75",
   "status": "proved",
   "theorems": [
    "Rmc.Net.C75_since_accept",
    "Rmc.Net.C75_not_accepted",
    "Rmc.Sys.C75_arrived"
   ],
   "note": "by the invariant SysInv.Inv"
  },
  {
   "property": "C76",
   "status": "partial",
   "theorems": [
    "Rmc.SubCtx.C76_free_args",
    "Rmc.SubCtx.C76_user_partial",
    "Rmc.SubCtx.C76_false"
   ],
   "note": "C76_free_args says exactly what the arguments are; the user data is that of the context unless a connection has been closed (C76_user_partial, C76_false)"
  },
  {
   "property": "C77",
   "status": "proved",
   "theorems": [
    "Rmc.PubCtx.C77_publisher",
    "Rmc.SubCtx.C77_subscriber"
   ],
   "note": "null arguments are not modelled"
  },
  {
   "property": "C78",
   "status": "partial",
   "theorems": [
    "Rmc.SubCtx.C78_index_partial",
    "Rmc.SubCtx.C78_false"
   ],
   "note": "proved while the connection has not been closed since the packet arrived; C78_false: closed and reused"
  },
  {
   "property": "C79",
   "status": "partial",
   "theorems": [
    "Rmc.PubCtx.C79_connections",
    "Rmc.PubCtx.C79_sockets_partial",
    "Rmc.PubCtx.C79_false"
   ],
   "note": "connections: in all histories; multicast and listen socket: in histories that use the context only while it is active; C79_false: a packet queued before activation"
  },
  {
   "property": "C80",
   "status": "partial",
   "theorems": [
    "Rmc.SubCtx.C80_done",
    "Rmc.SubCtx.C80_subscriber",
    "Rmc.SubCtx.C80_left",
    "Rmc.SubCtx.C80_not_due",
    "Rmc.PubCtx.C80_left",
    "Rmc.PubCtx.C80_not_due",
    "Rmc.PubCtx.C80_announce",
    "Rmc.PubCtx.C80_publisher_partial",
    "Rmc.PubCtx.C80_idle",
    "Rmc.PubCtx.C80_false"
   ],
   "note": "proved in full for the subscriber; for the publisher if no subscriber owes both overdue and other packets (C80_false: then the call does nothing, C80_idle)"
  },
  {
   "property": "C81",
   "status": "partial",
   "theorems": [
    "Rmc.PubCtx.C81_order",
    "Rmc.PubCtx.C81_false",
    "Rmc.PubCtx.C26_exact"
   ],
   "note": "if the call returns 0 all get what is due (C26_exact); otherwise C81_order says exactly who gets what; C81_false: a full connection starves the next subscriber"
  },
  {
   "property": "C82",
   "status": "proved",
   "theorems": [
    "Rmc.Sys.C82_fair"
   ],
   "note": "by a measure (bytes left) that no event increases and every round decreases; rounds and the measure are specified in SysFair (Turn, Turns, work)"
  },
  {
   "property": "C83",
   "status": "proved",
   "theorems": [
    "Rmc.PubCtx.C83_once"
   ],
   "note": "for a publisher that has its port (given, or chosen at the first activation)"
  },
  {
   "property": "C84",
   "status": "partial",
   "theorems": [
    "Rmc.SubCtx.C84_subscriber",
    "Rmc.SubCtx.C84_sub_multicast",
    "Rmc.SubCtx.C84_sub_bind_false",
    "Rmc.PubCtx.C84_publisher_partial",
    "Rmc.PubCtx.C84_pub_multicast_partial",
    "Rmc.PubCtx.C84_pub_false",
    "Rmc.PubCtx.C84_pub_forever"
   ],
   "note": "subscriber: proved, but C84_sub_bind_false: after a failing bind() the multicast socket is open and not registered; publisher: proved for orderly use (queueing, timeouts, accepting only while active), the write interest of the multicast socket if nothing waits at activation; C84_pub_false, C84_pub_forever: otherwise the program ends or never multicasts again"
  },
  {
   "property": "C85",
   "status": "proved",
   "theorems": [
    "Rmc.Selftest.C85_verdict",
    "Rmc.Selftest.C85_dispatched",
    "Rmc.Selftest.C85_ragged",
    "Rmc.Selftest.C85_large"
   ],
   "note": "by an invariant tying each entry to the signals seen; for payloads of whole signals and announced maxima below the largest int (C85_large: beyond that the test program overflows or reads out of bounds)"
  },
  {
   "property": "C86",
   "status": "partial",
   "theorems": [
    "Rmc.Selftest.C86_packets",
    "Rmc.Selftest.C86_end_to_end",
    "Rmc.Selftest.C86_false",
    "Rmc.Selftest.C86_large"
   ],
   "note": "from C49 and C85: no alarm exactly if the first packet delivered is the first one queued; C86_false: the loss of the first datagram makes the test raise the alarm; C86_large: counts of 2^32 and more are announced wrongly"
  },
  {
   "property": "C87",
   "status": "partial",
   "theorems": [
    "Rmc.SubCtx.C87_subscriber",
    "Rmc.SubCtx.C87_sub_faults",
    "Rmc.SubCtx.C87_sub_write",
    "Rmc.SubCtx.C87_sub_eagain_false",
    "Rmc.PubCtx.C87_publisher_partial",
    "Rmc.PubCtx.C87_pub_faults_partial",
    "Rmc.PubCtx.C87_pub_write"
   ],
   "note": "subscriber: proved for every report epoll_wait() can make; publisher: for orderly use (C84) and accept() without a failing setsockopt(); C87_sub_eagain_false: the subscriber of the test programs gives up a connection on EAGAIN"
  },
  {
   "property": "C88",
   "status": "proved",
   "theorems": [
    "Rmc.C88_wait",
    "Rmc.SubCtx.C88_subscriber",
    "Rmc.SubCtx.C88_served",
    "Rmc.PubCtx.C88_publisher",
    "Rmc.C88_int"
   ],
   "note": ""
  },
  {
   "property": "C89",
   "status": "proved",
   "theorems": [
    "Rmc.TestSub.C89_verdict",
    "Rmc.TestSub.C89_alarm",
    "Rmc.TestSub.C89_success",
    "Rmc.TestSub.C89_one_publisher",
    "Rmc.TestSub.C89_end_to_end",
    "Rmc.TestSub.C89_library",
    "Rmc.TestSub.C89_finish"
   ],
   "note": "the program of TestSub.lean; the loss of the first packet, which makes it raise the alarm, is the subject of C86_false"
  },
  {
   "property": "C90",
   "status": "proved",
   "theorems": [
    "Rmc.TestPub.C90_queued",
    "Rmc.TestPub.C90_calls",
    "Rmc.TestPub.C90_counter",
    "Rmc.TestPub.C90_waiting",
    "Rmc.TestPub.C90_expected",
    "Rmc.TestPub.C90_sending",
    "Rmc.TestPub.C90_round",
    "Rmc.TestPub.C90_leaving",
    "Rmc.TestPub.C90_done",
    "Rmc.TestPub.C90_faults",
    "Rmc.TestPub.C90_end_to_end",
    "Rmc.TestPub.C90_no_round"
   ],
   "note": "the program of TestPub.lean, for accept() without a failing setsockopt() (which leaves the table inconsistent, C45_false); the calls that can go wrong are those of C15 and C29"
  },
  {
   "property": "C91",
   "status": "proved",
   "theorems": [
    "Rmc.Sys.C91_all_delivered",
    "Rmc.TestPub.C91_self_test"
   ],
   "note": "C82 with C49 (a contiguous piece of what was queued that has all ids is all of it), C86 and C89; the condition on the first packet is needed (C86: a subscriber that misses the first packet raises the alarm)"
  },
  {
   "property": "C92",
   "status": "partial",
   "theorems": [
    "Rmc.CmdLine.C92_accepted",
    "Rmc.CmdLine.C92_arguments",
    "Rmc.CmdLine.C92_numbers",
    "Rmc.CmdLine.C92_expected",
    "Rmc.CmdLine.C92_expected_partial",
    "Rmc.CmdLine.C92_self_test",
    "Rmc.CmdLine.C92_waits",
    "Rmc.CmdLine.C92_crash",
    "Rmc.CmdLine.C92_false"
   ],
   "note": "getopt() is not modelled; without -E the documented meaning holds (C92_expected_partial), with -E a subscriber waits for a node that is not there (C92_waits, C92_false)"
  },
  {
   "property": "C93",
   "status": "proved",
   "theorems": [
    "Rmc.Net.C93_everybody",
    "Rmc.Net.C93_the_same"
   ],
   "note": "the network of Net.lean: the events of the network are projected on each connection that stays, and C82 and C91 hold for it"
  },
  {
   "property": "C94",
   "status": "proved",
   "theorems": [
    "Rmc.Selftest.C94_verdict",
    "Rmc.Net.C94_no_alarm",
    "Rmc.Net.C94_self_test"
   ],
   "note": "C85 for mixtures (the signals of each node are a correct beginning on their own), C70 and C93 for the network, C89 for the program; needed: the first packet received of each publisher is its first one (C86), one connection for each publisher"
  },
  {
   "property": "C95",
   "status": "proved",
   "theorems": [
    "Rmc.UnitTest.C95_lists",
    "Rmc.UnitTest.C95_intervals",
    "Rmc.UnitTest.C95_buffer",
    "Rmc.UnitTest.C95_publisher",
    "Rmc.UnitTest.C95_subscriber",
    "Rmc.UnitTest.C95_unit_tests",
    "Rmc.UnitTest.C95_check_integrity",
    "Rmc.UnitTest.C95_check_hangs",
    "Rmc.UnitTest.C95_write_data",
    "Rmc.UnitTest.C95_read_data",
    "Rmc.UnitTest.C95_read_data_rejects",
    "Rmc.UnitTest.C95_compare",
    "Rmc.UnitTest.C95_interval_list",
    "Rmc.UnitTest.C95_interval_at",
    "Rmc.UnitTest.C95_packet_list",
    "Rmc.UnitTest.C95_list_sequence"
   ],
   "note": "The five unit tests are transcribed call by call and run on the models by the kernel, with the uninitialised memory and the clock universally quantified; the helpers of the buffer test are characterised on all well-formed buffers. C95_subscriber also shows that the checks 2.2, 2.4, 2.6 of test_sub look at no packet at all (finding 40). The remaining checks (the order, interval lists, one interval, packet lists, linked lists) are characterised: what they accept is exactly what they say they test, for every list (packet lists and linked lists away from 2^64 and 2^32)."
  },
  {
   "property": "C96",
   "status": "proved",
   "theorems": [
    "Rmc.Sys.C96_asleep",
    "Rmc.Net.C96_everybody"
   ],
   "note": "for two programs and for any number of them: the registrations of the event loops (C84) and the timers (C27, C40) of both sides, in the composed system; the history of the publisher within that of the system is projected out (pubCalls); sockets are taken to be writable when nothing is on its way"
  },
  {
   "property": "C97",
   "status": "proved",
   "theorems": [
    "Rmc.Net.C97_self_test"
   ],
   "note": "C96 for each connection of the subscriber, with the checks of C94; the rest of C93's fair schedules is not needed: it is enough that everybody sleeps"
  },
  {
   "property": "C98",
   "status": "proved",
   "theorems": [
    "Rmc.PubCtx.C98_stays",
    "Rmc.TestPub.C98_publisher",
    "Rmc.TestPub.C98_history",
    "Rmc.Net.C98_self_test"
   ],
   "note": "the publisher half of what C97 assumes (everything queued was sent to the subscriber), and that the context is used in order, are proved from the publisher program; witness: the two programs run in a network in which the only packet is lost in multicast and sent again over TCP"
  },
  {
   "property": "C99",
   "status": "proved",
   "theorems": [
    "Rmc.Cut.C99_broken",
    "Rmc.Cut.C99_ended",
    "Rmc.Net.C99_link"
   ],
   "note": "the invariant of C49 without what needs the connection: the bytes still to come are the beginning of complete frames of packets sent; witnesses: a break inside a resent packet, with multicast coming in afterwards; a break after it; C99_link: the same for a connection between any two programs of a network"
  },
  {
   "property": "C100",
   "status": "partial",
   "theorems": [
    "Rmc.Selftest.C100_exact",
    "Rmc.Selftest.C100_partial",
    "Rmc.Selftest.C100_fine",
    "Rmc.Selftest.C100_false",
    "Rmc.Selftest.C100_false_rate"
   ],
   "note": "false of the code: with one signal (-c 1) its first and last signal is the same and may be handled within one microsecond of the clock: n/0.0 is infinite and its conversion to int undefined (finding 42); C100_exact says exactly when, C100_partial that otherwise the statement holds"
  },
  {
   "property": "C101",
   "status": "partial",
   "theorems": [
    "Rmc.Sys.C101_exact",
    "Rmc.Sys.C101_timely_partial",
    "Rmc.Cut.C101_reconnect_partial",
    "Rmc.Cut.C101_reconnect_timely_partial",
    "Rmc.Cut.C101_false"
   ],
   "note": "false of the code: the new subscription starts with whatever packet of the publisher comes in first, so a datagram multicast before the second connection was begun, delayed or repeated by the network, is delivered a second time (C101_false, witness computed by the kernel; finding 43). Proved: the property holds, for every break, all calls in between and every second history, if the first packet that comes in over the new connection is no such datagram; and (C101_exact) exactly then is everything delivered newer than what was multicast before the connection was begun; what comes over TCP is always new (C75). A condition on the network alone suffices (the _timely theorems): no datagram read over the new connection carries a packet multicast before it was begun"
  },
  {
   "property": "C102",
   "status": "partial",
   "theorems": [
    "Rmc.Cut.C102_exact",
    "Rmc.Cut.C102_false"
   ],
   "note": "false of the code: what was sent but not delivered when the first connection ended, and what is multicast until the second is begun, is never delivered (C102_false, witness computed by the kernel; finding 44). Proved exactly when there is no gap (C102_exact): if and only if the last packet multicast before the second connection was begun had been delivered over the first and the next is delivered over the second"
  }
 ]
}