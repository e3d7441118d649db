P="PtrList."
c("C08","proved",[P+"C08_step",P+"C08_history",P+"C08_well_linked"],"simulation of a sequence-level specification by the pointer code, any number of lists, any history; malloc assumed to succeed, element count unbounded")
c("C09","proved",[P+"C09_insertSorted",P+"C09_insertSortedRev",P+"C09_find",P+"C09_find_sorted_rev"],"at pointer level, for every comparator of the shapes the library uses")
c("C10","proved",["C10_header_roundtrip","C10_ack_roundtrip","C10_ctl_roundtrip","C10_injective","C10_header_surjective"],"little-endian byte lists; all field values")
c("C12","partial",["Proto.C12_chunking_partial","Proto.C12_independent_partial","Proto.C12_boundaries_safe","PubCtx.C12_publisher_partial","PubCtx.C12_false","SubCtx.C12_subscriber_partial","SubCtx.C12_resent_partial","SubCtx.C12_subscriber_false"],"holds for every chunking in which no read hits the trim defect (C05); false in general: C12_false delivers a control message twice, C12_subscriber_false delivers a packet without its payload")
c("C13","partial",["Proto.C13_fifo_out","Proto.C13_report","Proto.C13_cmd_oob"],"false when a command is added while the buffer's end index equals its size: the command byte is then written out of bounds (C13_cmd_oob)")
c("C14","partial",["Proto.C14_unknown_partial","Proto.C14_incomplete_partial","PubCtx.C14_false","PubCtx.C14_publisher_unknown_partial","PubCtx.C14_publisher_incomplete_partial","SubCtx.C14_subscriber_unknown_partial","SubCtx.C12_subscriber_partial"],"for every read outside the trim defect (C05); false otherwise (C14_false)")
c("C16","proved",["C16_ids","C16_returned","PubCtx.C16_api"],"every history with fewer than 2^64 queued packets")
c("C17","proved",["C17_order","C17_announcements_first","C17_progress"],"")
c("C18","proved",["C18_free_safe","C18_free_once"],"")
c("C19","partial",["C19_released_partial","C19_count","C19_false"],"false for packets multicast while nobody is connected: never released (C19_false)")
c("C20","proved",["C20_safe"],"")
c("C21","proved",["C21_no_effect"],"")
c("C22","proved",["C22_single","PubCtx.C22_interval","PubCtx.C22_diverges"],"every interval with last < 2^64-1 after every history of the publisher context; the remaining one never returns (C22_diverges)")
c("C11","proved",["PubCtx.C11_reject","PubCtx.C11_fits","PubCtx.C11_send","PubCtx.C11_resend"],"")
c("C15","partial",["PubCtx.C15_publisher_partial","PubCtx.C15_eof","PubCtx.C15_hang","PubCtx.C15_uninit","PubCtx.C15_oob","SubCtx.C15_subscriber_partial","SubCtx.C15_subscriber_eof"],"publisher: false (C15_hang, C15_uninit, C15_oob); proved for every byte stream without the hostile commands and outside the trim defect; subscriber: proved for every byte stream outside the trim defect")
c("C52","proved",["PubCtx.C52_publisher_faults"],"")
c("C23","proved",["C23_outstanding","C23_owed_rules"],"")
c("C24","proved",["C24_close"],"")
S="SubPub."


c("C45","partial",["ConnVec.C45_slots_partial","ConnVec.C45_enomem_partial","ConnVec.C45_max_close","ConnVec.C45_false"],"Proved for every history and all results of the socket calls except setsockopt(TCP_NODELAY) failing on an accepted connection, where the code closes the wrong slot: refuted by C45_false.")
c("C46","partial",["ConnVec.C46_address_partial","ConnVec.C46_node_id","ConnVec.C46_index_partial","ConnVec.C46_false"],"Full for the subscriber (which only connects). Publisher histories exclude the failing setsockopt of C45_false, where the lookup fails (C46_false).")
c("C47","proved",["ConnVec.C47_clean"],"Buffers, for every history. That no packets are owed by a new subscriber is C23_outstanding; the subscriber's record of a publisher is re-initialised on connection (SubPub.init).")
Q="PubCtx."
c("C25","partial",[Q+x for x in ["C25_busy","C25_suspend","C25_suspend_at","C25_resume_safe","C25_resume_partial","C25_resume_timeout_partial","C25_stuck","C25_false","C25_thresholds","C25_off"]],"suspension, refusal and resumption by acknowledgements are exact; false when the count drops because a subscriber is closed: nothing ever resumes the publisher (C25_stuck, C25_false)")
c("C26","partial",[Q+x for x in ["C26_exact","C26_all_or_none_partial","C26_partial_failure","C26_false"]],"exact characterisation of what timeout processing resends, for every history; the claim as stated is false (C26_false): the scan starts at the newest packet")
c("C27","proved",[Q+"C27_next",Q+"resendTimeout_const"],"under a clock that does not go backwards and non-negative times")
c("C30","proved",[Q+x for x in ["C30_fires","C30_silent","C30_rate","C30_off"]],"")
c("C28","partial",[Q+"C28_exact_partial",Q+"C28_false"],"exact formula for every history; the third number counts a packet once per subscriber, so the claim as stated is false (C28_false)")
c("C29","partial",[Q+"C29_resend_partial",Q+"C29_oob",Q+"C29_decodable"],"false when the write position is at the very end of the buffer (C29_oob)")
c("C31","partial",[Q+"C31_supplied_partial",Q+"C31_intact_partial",Q+"C31_false"],"false: the bytes come from a dead stack frame (C31_false)")
c("C32","partial",[Q+"C32_exact_partial",Q+"C32_false"],"exact characterisation; false for packets still queued or sent while nobody was connected (C32_false)")
c("C53","proved",[Q+"C53_datagrams"],"")

T="SubCtx."
c("C33","proved",[S+"C33_in_order",S+"C33_prefix",S+"C33_pid_zero_false",T+"C33_api",T+"C33_ready_list"],"for packet ids a publisher assigns (C16); a peer that resends packet id 0 over TCP breaks it (C33_pid_zero_false)")
c("C34","proved",[S+"C34_payload",T+"C34_api",T+"C34_datagram",T+"C34_accepted",T+"C34_batch"],"")
c("C35","proved",[S+"C35_duplicate",T+"C35_api",T+"C35_datagram"],"")
c("C36","partial",[S+"C36_delivered_partial",S+"C36_older_dropped",S+"C36_false",T+"C36_api_partial"],"exact characterisation of what is delivered; false for packets overtaken by the first arrival (C36_false)")
c("C37","proved",[S+"C37_intervals",S+"C37_timestamps",T+"C37_api"],"timestamps under a clock that does not go backwards")
c("C38","proved",[S+"C38_core",T+"C38_api",T+"C38_taken",T+"C38_stream"],"")
c("C39","partial",[T+x for x in ["C39_partial","C39_quiet_partial","C39_late_false","C39_lost","C39_lost_false"]],"proved under the exact condition the code checks; false in general (C39_late_false: only the first interval's age is looked at; C39_lost_false: lost when the write buffer is full)")
c("C40","partial",[T+x for x in ["C40_returns","C40_none_partial","C40_single_partial","C40_false","C40_stale_false"]],"what is returned is characterised exactly; the claim is false with several publishers (C40_false) and after a close (C40_stale_false)")
c("C41","partial",[T+x for x in ["C41_once_partial","C41_ready_live","C41_none_lost_partial","C41_deactivated_partial","C41_false"]],"at most once: proved for every history; released on shutdown: proved if the ready list is empty then, false otherwise (C41_false)")
c("C42","proved",[T+x for x in ["C42_dispatched","C42_unknown","C42_once","C42_count"]],"")
c("C43","partial",[T+x for x in ["C43_opens","C43_other_calls","C43_subscribed","C43_veto","C43_accepted","C43_unique_partial","C43_false"]],"what each announcement does is exact; uniqueness holds unless an announcement comes in while the connection is being set up (C43_false)")
c("C44","partial",[T+x for x in ["C44_close_partial","C44_deactivate_partial","C44_false","close_fault"]],"exact conditions; false for a connection still being set up (C44_false)")
c("C48","partial",[Q+"C48_connections",Q+"C48_mcast_partial",Q+"C48_mcast_false",Q+"C48_mcast_queue",Q+"C48_mcast_write",T+"C48_sub_registered",T+"C48_sub_pending_partial",T+"C48_sub_false",T+"C48_sub_remove_false"],"publisher connections: proved (read interest always, write interest exactly while bytes are pending); multicast socket of the publisher: false in general (C48_mcast_false), proved for histories without reactivation and reads of that socket; subscriber: what is asked for never exceeds what is needed, and is exact without reads; false after a read (C48_sub_false) and when setting up fails (C48_sub_remove_false)")
c("C54","partial",[T+x for x in ["C54_partial","C54_cases","C54_refused","C54_routed","C54_false","C54_oob_false"]],"all cases characterised (C54_cases); false when the message wraps around the end of the write buffer (C54_false, C54_oob_false)")
c("C55","proved",[T+x for x in ["C55_no_fault","C55_read","C55_timeout","C55_timeout_oob","C55_timeout_start","C55_ctl","close_fault","C15_subscriber_partial","C15_subscriber_eof"]],"every call; the exceptions are characterised by C55_read, C55_timeout, C55_ctl and close_fault")
c("C59","proved",[T+x for x in ["C59_stream","C59_start","C59_packets","C59_closes"]],"")
c("C60","proved",[Q+"C60_acks"],"")
c("C56","proved",[Q+"C56_publisher",T+"C56_subscriber"],"")
c("C57","proved",[T+"C57_callback"],"")
c("C58","proved",[Q+"C58_disconnect",Q+"C58_connect",Q+"C58_balance"],"")

c("C49","proved",["Sys.C49_end_to_end"],"composed system: publisher + subscriber contexts, lossy/duplicating/reordering multicast, TCP cut into arbitrary reads, any other connections; until one side or the network closes the connection")
c("C50","proved",["Sys.C50_nothing_lost","Sys.C50_released"],"composed system; hypothesis: no publisher read from the connection returned EPROTO (the trim defect, C12, then leaves a spoilt buffer)")
c("C51","partial",["Sys.C51_false","Sys.C51_drained_partial","Sys.C51_rest_partial"],"false of the code: packets multicast before the publisher accepts the connection are never resent although they can set the subscriber's base, so later packets may wait for ever; proved for every schedule: after a successful timeout call at which everything held is overdue, as soon as the stream is drained everything multicast before it has arrived, and is delivered if the first packet received was multicast after the accept (C51_drained_partial); when nothing is held and nothing is in the stream, everything multicast since the accept has arrived, and is delivered up to the first gap of earlier packets")

c("C61","partial",[Q+"C61_publisher_held",Q+"C61_publisher_partial",Q+"C61_publisher_deactivated",Q+"C61_publisher_false",T+"C61_subscriber",T+"C61_subscriber_deactivated"],"subscriber: proved for every history; publisher: nothing is closed twice and nothing held is closed for every history, nothing leaks if it is activated only while inactive; false otherwise (C61_publisher_false)")

c("C62","proved",[Q+"C62_publisher",Q+"C62_pending",T+"C62_subscriber"],"all calls; `Code` is the table of codes. Hypotheses: a failing system call sets errno, setsockopt(TCP_NODELAY) on an accepted socket does not fail (C45_false)")
c("C63","proved",[Q+"C63_write",Q+"C63_drains"],"")
c("C64","partial",["Log.C64_index_fits","Log.C64_no_fault","Log.C64_null_false"],"proved for histories that never set a null output file; false otherwise (C64_null_false)")
c("C65","proved",["Log.C65_message","Log.C65_level","C65_clock","C65_clock_exact"],"the text of the formatted message is a parameter (vfprintf is not modelled)")
c("C66","partial",["Life.C66_blocks_partial","Life.C66_create","Life.C66_create_args","Life.C66_isolated","Life.C66_many_publishers","Life.C66_many_subscribers","Life.C66_new_publisher","Life.C66_new_subscriber","Life.C66_delete","Life.C66_delete_publisher","Life.C66_delete_subscriber_partial","Life.C66_false"],"false: the array of records is never freed and a failed creation leaves its blocks (C66_false); everything else is proved, for the subscriber's deletion unless a connection is being set up (C44)")
c("C67","partial",["Dissect.C67_datagram","Dissect.C67_commands_partial","Dissect.C67_cut","Dissect.C67_unknown","Dissect.C67_resent","Dissect.C67_false"],"datagrams and the direction from publisher to subscriber: proved for every cutting; from subscriber to publisher: proved for segments of whole commands, false otherwise (C67_false; C67_cut and C67_unknown say exactly what is shown then). tcp_dissect_pdus of Wireshark is modelled by its documentation")
c("C68","partial",["Sys.C68_recovers_partial","Sys.C68_empty","Sys.C68_false"],"proved from every reachable state in which the subscriber's read buffer is at its start position (empty, or holding the beginning of the first command since it was last empty) and the publisher has not reported a protocol error; false without that (C68_false)")
c("C69","partial",[Q+"C69_publisher",Q+"C69_false",T+"C69_subscriber",T+"C69_false","C69_numbers"],"the value is characterised exactly for every call (C69_publisher, C69_subscriber); it is not the documented one in the cases of the two C69_false theorems")
c("C70","proved",["Net.C70_delivery","Net.C70_agree","Net.C70_nothing_lost","Net.C70_released"],"the network of Net.lean: any number of publishers and subscribers; nothing is claimed of links on which the publisher has seen a protocol error (nothing_lost, released)")
c("C71","partial",["Net.C71_recovers_partial","Net.C71_false"],"the schedule exists for all subscribers whose read buffer starts at position 0 (in particular when it is empty); C71_false: without this the trim defect makes every read end the connection")
c("C72","partial",["Sys.C72_controls_partial","Sys.C72_all_partial","Sys.C72_false"],"proved for every history in which the publisher's reads stay clear of the last five bytes of its receive buffer, the callback is set and no protocol error is reported; C72_false: otherwise the callback can be called twice for one message; that the bytes put on are those given: see C54")
c("C73","partial",["Net.C73_join_partial",Q+"C73_mute_false"],"proved for publishers that are not suspended, unless one of the callbacks refuses or a system call fails; C73_mute_false: a suspended publisher with nobody subscribed and nothing pending never multicasts again")
c("C74","partial",["Net.C74_first_partial","Net.C74_rest_partial","Net.C74_false"],"proved: the first packet after joining; at rest, everything from the first arrival on. C74_false: two lost packets are resent newest first and the older one is dropped")
c("C75","proved",["Net.C75_since_accept","Net.C75_not_accepted","Sys.C75_arrived"],"by the invariant SysInv.Inv")
c("C76","partial",[T+"C76_free_args",T+"C76_user_partial",T+"C76_false"],"C76_free_args says exactly what the arguments are; the user data is that of the context unless a connection has been closed (C76_user_partial, C76_false)")
c("C77","proved",[Q+"C77_publisher",T+"C77_subscriber"],"null arguments are not modelled")
c("C78","partial",[T+"C78_index_partial",T+"C78_false"],"proved while the connection has not been closed since the packet arrived; C78_false: closed and reused")
c("C79","partial",[Q+"C79_connections",Q+"C79_sockets_partial",Q+"C79_false"],"connections: in all histories; multicast and listen socket: in histories that use the context only while it is active; C79_false: a packet queued before activation")
c("C80","partial",[T+"C80_done",T+"C80_subscriber",T+"C80_left",T+"C80_not_due",Q+"C80_left",Q+"C80_not_due",Q+"C80_announce",Q+"C80_publisher_partial",Q+"C80_idle",Q+"C80_false"],"proved in full for the subscriber; for the publisher if no subscriber owes both overdue and other packets (C80_false: then the call does nothing, C80_idle)")
c("C81","partial",[Q+"C81_order",Q+"C81_false",Q+"C26_exact"],"if the call returns 0 all get what is due (C26_exact); otherwise C81_order says exactly who gets what; C81_false: a full connection starves the next subscriber")
c("C82","proved",["Sys.C82_fair"],"by a measure (bytes left) that no event increases and every round decreases; rounds and the measure are specified in SysFair (Turn, Turns, work)")
c("C83","proved",[Q+"C83_once"],"for a publisher that has its port (given, or chosen at the first activation)")
c("C84","partial",[T+"C84_subscriber",T+"C84_sub_multicast",T+"C84_sub_bind_false",Q+"C84_publisher_partial",Q+"C84_pub_multicast_partial",Q+"C84_pub_false",Q+"C84_pub_forever"],"subscriber: proved, but C84_sub_bind_false: after a failing bind() the multicast socket is open and not registered; publisher: proved for orderly use (queueing, timeouts, accepting only while active), the write interest of the multicast socket if nothing waits at activation; C84_pub_false, C84_pub_forever: otherwise the program ends or never multicasts again")
c("C85","proved",["Selftest.C85_verdict","Selftest.C85_dispatched","Selftest.C85_ragged","Selftest.C85_large"],"by an invariant tying each entry to the signals seen; for payloads of whole signals and announced maxima below the largest int (C85_large: beyond that the test program overflows or reads out of bounds)")
c("C86","partial",["Selftest.C86_packets","Selftest.C86_end_to_end","Selftest.C86_false","Selftest.C86_large"],"from C49 and C85: no alarm exactly if the first packet delivered is the first one queued; C86_false: the loss of the first datagram makes the test raise the alarm; C86_large: counts of 2^32 and more are announced wrongly")
c("C87","partial",[T+"C87_subscriber",T+"C87_sub_faults",T+"C87_sub_write",T+"C87_sub_eagain_false",Q+"C87_publisher_partial",Q+"C87_pub_faults_partial",Q+"C87_pub_write"],"subscriber: proved for every report epoll_wait() can make; publisher: for orderly use (C84) and accept() without a failing setsockopt(); C87_sub_eagain_false: the subscriber of the test programs gives up a connection on EAGAIN")
c("C88","proved",["C88_wait",T+"C88_subscriber",T+"C88_served",Q+"C88_publisher","C88_int"],"")
c("C89","proved",["TestSub.C89_verdict","TestSub.C89_alarm","TestSub.C89_success","TestSub.C89_one_publisher","TestSub.C89_end_to_end","TestSub.C89_library","TestSub.C89_finish"],"the program of TestSub.lean; the loss of the first packet, which makes it raise the alarm, is the subject of C86_false")
c("C90","proved",["TestPub.C90_queued","TestPub.C90_calls","TestPub.C90_counter","TestPub.C90_waiting","TestPub.C90_expected","TestPub.C90_sending","TestPub.C90_round","TestPub.C90_leaving","TestPub.C90_done","TestPub.C90_faults","TestPub.C90_end_to_end","TestPub.C90_no_round"],"the program of TestPub.lean, for accept() without a failing setsockopt() (which leaves the table inconsistent, C45_false); the calls that can go wrong are those of C15 and C29")
c("C91","proved",["Sys.C91_all_delivered","TestPub.C91_self_test"],"C82 with C49 (a contiguous piece of what was queued that has all ids is all of it), C86 and C89; the condition on the first packet is needed (C86: a subscriber that misses the first packet raises the alarm)")
c("C92","partial",["CmdLine.C92_accepted","CmdLine.C92_arguments","CmdLine.C92_numbers","CmdLine.C92_expected","CmdLine.C92_expected_partial","CmdLine.C92_self_test","CmdLine.C92_waits","CmdLine.C92_crash","CmdLine.C92_false"],"getopt() is not modelled; without -E the documented meaning holds (C92_expected_partial), with -E a subscriber waits for a node that is not there (C92_waits, C92_false)")
c("C93","proved",["Net.C93_everybody","Net.C93_the_same"],"the network of Net.lean: the events of the network are projected on each connection that stays, and C82 and C91 hold for it")
c("C94","proved",["Selftest.C94_verdict","Net.C94_no_alarm","Net.C94_self_test"],"C85 for mixtures (the signals of each node are a correct beginning on their own), C70 and C93 for the network, C89 for the program; needed: the first packet received of each publisher is its first one (C86), one connection for each publisher")
c("C95","proved",["UnitTest.C95_lists","UnitTest.C95_intervals","UnitTest.C95_buffer","UnitTest.C95_publisher","UnitTest.C95_subscriber","UnitTest.C95_unit_tests","UnitTest.C95_check_integrity","UnitTest.C95_check_hangs","UnitTest.C95_write_data","UnitTest.C95_read_data","UnitTest.C95_read_data_rejects","UnitTest.C95_compare","UnitTest.C95_interval_list","UnitTest.C95_interval_at","UnitTest.C95_packet_list","UnitTest.C95_list_sequence"],"The five unit tests are transcribed call by call and run on the models by the kernel, with the uninitialised memory and the clock universally quantified; the helpers of the buffer test are characterised on all well-formed buffers. C95_subscriber also shows that the checks 2.2, 2.4, 2.6 of test_sub look at no packet at all (finding 40). The remaining checks (the order, interval lists, one interval, packet lists, linked lists) are characterised: what they accept is exactly what they say they test, for every list (packet lists and linked lists away from 2^64 and 2^32).")
c("C96","proved",["Sys.C96_asleep","Net.C96_everybody"],"for two programs and for any number of them: the registrations of the event loops (C84) and the timers (C27, C40) of both sides, in the composed system; the history of the publisher within that of the system is projected out (pubCalls); sockets are taken to be writable when nothing is on its way")
c("C97","proved",["Net.C97_self_test"],"C96 for each connection of the subscriber, with the checks of C94; the rest of C93's fair schedules is not needed: it is enough that everybody sleeps")
c("C98","proved",["PubCtx.C98_stays","TestPub.C98_publisher","TestPub.C98_history","Net.C98_self_test"],"the publisher half of what C97 assumes (everything queued was sent to the subscriber), and that the context is used in order, are proved from the publisher program; witness: the two programs run in a network in which the only packet is lost in multicast and sent again over TCP")
c("C99","proved",["Cut.C99_broken","Cut.C99_ended","Net.C99_link"],"the invariant of C49 without what needs the connection: the bytes still to come are the beginning of complete frames of packets sent; witnesses: a break inside a resent packet, with multicast coming in afterwards; a break after it; C99_link: the same for a connection between any two programs of a network")
c("C100","partial",["Selftest.C100_exact","Selftest.C100_partial","Selftest.C100_fine","Selftest.C100_false","Selftest.C100_false_rate"],"false of the code: with one signal (-c 1) its first and last signal is the same and may be handled within one microsecond of the clock: n/0.0 is infinite and its conversion to int undefined (finding 42); C100_exact says exactly when, C100_partial that otherwise the statement holds")
c("C101","partial",["Sys.C101_exact","Sys.C101_timely_partial","Cut.C101_reconnect_partial","Cut.C101_reconnect_timely_partial","Cut.C101_false"],"false of the code: the new subscription starts with whatever packet of the publisher comes in first, so a datagram multicast before the second connection was begun, delayed or repeated by the network, is delivered a second time (C101_false, witness computed by the kernel; finding 43). Proved: the property holds, for every break, all calls in between and every second history, if the first packet that comes in over the new connection is no such datagram; and (C101_exact) exactly then is everything delivered newer than what was multicast before the connection was begun; what comes over TCP is always new (C75). A condition on the network alone suffices (the _timely theorems): no datagram read over the new connection carries a packet multicast before it was begun")
c("C102","partial",["Cut.C102_exact","Cut.C102_false"],"false of the code: what was sent but not delivered when the first connection ended, and what is multicast until the second is begun, is never delivered (C102_false, witness computed by the kernel; finding 44). Proved exactly when there is no gap (C102_exact): if and only if the last packet multicast before the second connection was begun had been delivered over the first and the next is delivered over the second")
