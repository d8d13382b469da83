{
 "claims": [
  {
   "property": "C01",
   "status": "proved",
   "theorems": [
    "Ecal.ExpMap.C01_refines_expiring_table",
    "Ecal.ExpMap.C01_recently_refreshed_survives",
    "Ecal.ExpMap.C01_no_dangling_iterator",
    "Ecal.ExpMap.C01_violated_by_reinsert"
   ],
   "note": "Holds for every history with a non-decreasing clock without re-insertion of a present key; no caller in the code base uses the public insert. The re-insertion case is shown to break the claim (C01_violated_by_reinsert). Memory safety holds for all histories."
  },
  {
   "property": "C02",
   "status": "proved",
   "theorems": [
    "Ecal.ExpMap.C02_no_stale_key_left",
    "Ecal.ExpMap.C02_reported_exactly_removed",
    "Ecal.ExpMap.C02_violated_by_reinsert"
   ],
   "note": "Same scope as C01; with re-insertion a key may be reported twice (C02_violated_by_reinsert)."
  },
  {
   "property": "C03",
   "status": "proved",
   "theorems": [
    "Ecal.Ring.C03_ring_holds_newest",
    "Ecal.Ring.C03_pushes_keep_last",
    "Ecal.Ring.C03_pop_error_iff_empty",
    "Ecal.Ring.C03_front_back"
   ],
   "note": ""
  },
  {
   "property": "C04",
   "status": "proved",
   "theorems": [
    "Ecal.Bcast.C04_each_event_exactly_once",
    "Ecal.Bcast.C04_newest_first",
    "Ecal.Bcast.C04_violated_same_tick",
    "Ecal.Bcast.C04_joining_process"
   ],
   "note": "Under the conditions in the statement; without strictly increasing send times it fails (C04_violated_same_tick)."
  },
  {
   "property": "C05",
   "status": "proved",
   "theorems": [
    "Ecal.Bcast.C05_no_own_events",
    "Ecal.Bcast.C05_loopback_returns_own"
   ],
   "note": ""
  },
  {
   "property": "C06",
   "status": "partial",
   "theorems": [
    "Ecal.Reader.C06_at_most_once_ordered_partial",
    "Ecal.Reader.C06_at_most_once_window_partial",
    "Ecal.Reader.C06_violated_late_copy"
   ],
   "note": "Proved for every history when out-of-order dropping is on (default); otherwise within a window of 64 arrivals; C06_violated_late_copy shows a copy arriving later is delivered again."
  },
  {
   "property": "C07",
   "status": "proved",
   "theorems": [
    "Ecal.Reader.C07_counters_increase",
    "Ecal.Reader.C07_option_needed"
   ],
   "note": "Every history, every interleaving; C07_option_needed shows the configuration premise is needed."
  },
  {
   "property": "C08",
   "status": "partial",
   "theorems": [
    "Ecal.Reader.C08_violated_off_by_one",
    "Ecal.Reader.C08_lost_plus_gaps_partial",
    "Ecal.Reader.C08_zero_iff_nothing_skipped_partial"
   ],
   "note": "Fails as stated (C08_violated_off_by_one): each gap is counted one too high. Proved: counter = skipped + number of gaps."
  },
  {
   "property": "C09",
   "status": "partial",
   "theorems": [
    "Ecal.Reader.C09_only_accepted_ids",
    "Ecal.Reader.C09_equals_ideal_partial",
    "Ecal.Reader.C09_no_trace_partial",
    "Ecal.Reader.C09_violated_filtered_reported_as_dropped",
    "Ecal.Reader.C09_violated_hash_collision"
   ],
   "note": "The filter itself is proved; deliveries equal those of an ideal subscriber when hashes are distinct; 'no trace' fails for statistics and colliding hashes (two witnesses)."
  },
  {
   "property": "C10",
   "status": "proved",
   "theorems": [
    "Ecal.Reader.C10_mailbox",
    "Ecal.Reader.C10_nothing_after_stop",
    "Ecal.Reader.C10_no_call_after_removal",
    "Ecal.Reader.C10_clock_counts_deliveries"
   ],
   "note": "Receive calls refine a one-place mailbox for all histories up to Stop; nothing is returned after Stop."
  },
  {
   "property": "C11",
   "status": "proved",
   "theorems": [
    "Ecal.Reader.C11_disabled_layer_no_effect",
    "Ecal.Reader.C11_never_delivered"
   ],
   "note": ""
  },
  {
   "property": "C12",
   "status": "proved",
   "theorems": [
    "Ecal.Writer.C12_started_iff_wanted",
    "Ecal.Writer.C12_choice",
    "Ecal.Writer.C12_choice_unique"
   ],
   "note": "For every history of subscriptions, drops and sends."
  },
  {
   "property": "C13",
   "status": "partial",
   "theorems": [
    "Ecal.Conn.C13_alternates_partial",
    "Ecal.Conn.C13_last_tells_alive_partial",
    "Ecal.Conn.C13_peer_implies_connected_partial",
    "Ecal.Conn.C13_violated_disconnected_with_peer",
    "Ecal.Conn.C13_violated_order_by_race",
    "Ecal.Conn.C13_interleaved_contains_atomic",
    "Ecal.Conn.C13_interleaved_contains_check"
   ],
   "note": "Proved for non-interleaved calls: alternation and truth of the last notification for every history. Violated under interleaving of a receiver thread with the registration thread; concrete schedules given."
  },
  {
   "property": "C14",
   "status": "partial",
   "theorems": [
    "Ecal.Conn.C14_alternates_partial",
    "Ecal.Conn.C14_last_tells_alive_partial",
    "Ecal.Conn.C14_violated_disconnected_with_peer"
   ],
   "note": "Same code as C13; same results."
  },
  {
   "property": "C15",
   "status": "proved",
   "theorems": [
    "Ecal.Writer.C15_counter_counts_sends",
    "Ecal.Writer.C15_copies_carry_counter",
    "Ecal.Writer.C15_counters_and_hashes_distinct",
    "Ecal.Writer.C15_bound_sharp"
   ],
   "note": "Counter, copies and distinctness of counters and hashes (below 2^63 sends) for every serial history; the bound is shown sharp. Concurrent Send calls on one publisher are outside (m_clock is not synchronised)."
  },
  {
   "property": "C16",
   "status": "partial",
   "theorems": [
    "Ecal.Registration.C16_accept_iff_partial",
    "Ecal.Registration.C16_sender_group_exists",
    "Ecal.Registration.C16_violated_same_pid_on_other_host",
    "Ecal.Registration.C16_violated_service_of_own_group_dropped",
    "Ecal.Registration.C16_violated_own_service_without_loopback",
    "Ecal.Registration.C16_default_configuration_partial",
    "Ecal.Registration.C16_routing"
   ],
   "note": "Exact accept condition proved for every sample and configuration. Violated: processes are compared by pid only; services, clients and processes carry no host group name (three witnesses). Full claim proved for the default host group with unique pids."
  },
  {
   "property": "C17",
   "status": "proved",
   "theorems": [
    "Ecal.Conn.C17_count_is_alive_peers",
    "Ecal.Gate.C17_publisher_counts_alive_subscribers",
    "Ecal.Gate.C17_subscriber_counts_confirmed_publishers",
    "Ecal.Gate.C17_destroyed_publisher_gone"
   ],
   "note": "Proved for publishers and subscribers inside the gates, for any history with any other topics and entities; destroyed objects receive nothing."
  },
  {
   "property": "C18",
   "status": "partial",
   "theorems": [
    "Ecal.Shm.C18_refused_buffer",
    "Ecal.Shm.C18_refused_payload",
    "Ecal.Shm.C18_no_read_beyond",
    "Ecal.Shm.C18_no_access_without_lock",
    "Ecal.Shm.C18_write_then_read",
    "Ecal.Shm.C18_history",
    "Ecal.Shm.C18_violated_failed_payload_is_published",
    "Ecal.Shm.C18_violated_oversize_clobbers_header",
    "Ecal.Shm.C18_recovered",
    "Ecal.Shm.C18_recovered_capacity"
   ],
   "note": "write/read exact for every content, length and history (with the publisher's size check); violated: a failing payload writer is published, an oversized write without size check clobbers the header"
  },
  {
   "property": "C19",
   "status": "partial",
   "theorems": [
    "Ecal.Shm.Torn.C19_no_torn_sample",
    "Ecal.Shm.Torn.C19_empty_after_crash",
    "Ecal.Shm.Torn.C19_recovers",
    "Ecal.Shm.Torn.C19_plain_lock_partial",
    "Ecal.Shm.Torn.C19_violated_foreign_destroy",
    "Ecal.Shm.Torn.C19_violated_crash_then_destroy",
    "Ecal.Shm.Torn.C19_violated_plain_lock_stuck"
   ],
   "note": "proved for the recoverable lock over all interleavings of single memory updates and crash points; with the plain lock (used for topic data) violated by destroying a foreign handle, and a crash blocks the channel for ever"
  },
  {
   "property": "C20",
   "status": "partial",
   "theorems": [
    "Ecal.Shm.Observer.C20_increasing",
    "Ecal.Shm.Observer.C20_content",
    "Ecal.Shm.Observer.C20_pending_survives",
    "Ecal.Shm.Observer.C20_acknowledge",
    "Ecal.Shm.Observer.C20_no_signal",
    "Ecal.Shm.Observer.C20_violated_incomplete_forwards_stale",
    "Ecal.Shm.Observer.C20_violated_zero_copy_beyond",
    "Ecal.Shm.Observer.C20_violated_restart_duplicates",
    "Ecal.Shm.Observer.C20_restart_needs_signal",
    "Ecal.Shm.Observer.C20_acks_bounded",
    "Ecal.Shm.Observer.C20_restart_is_fresh"
   ],
   "note": "strictly increasing counters and exact content for every interleaving within one observer run; violated across a restart of the observer and for incomplete segments"
  },
  {
   "property": "C21",
   "status": "partial",
   "theorems": [
    "Ecal.Shm.Db.C21_lifetime_partial",
    "Ecal.Shm.Db.C21_violated_remap_dangles",
    "Ecal.Shm.Db.C21_violated_stale_count",
    "Ecal.Shm.Db.C21_violated_leak",
    "Ecal.Shm.Db.C21_open_is_large_enough",
    "Ecal.Shm.Db.C21_mapped_or_unmapped"
   ],
   "note": "proved for every open/close history without remapping; violated: remapping leaves dangling pointers, the size check writes back stale use counts"
  },
  {
   "property": "C22",
   "status": "partial",
   "theorems": [
    "Ecal.Udp.C22_network_part",
    "Ecal.Udp.C22_never_base",
    "Ecal.Udp.C22_base_iff",
    "Ecal.Udp.C22_violated_full_mask",
    "Ecal.Udp.C22_violated_odd_mask",
    "Ecal.Udp.C22_text_roundtrip",
    "Ecal.Udp.C22_topic_address_partial",
    "Ecal.Udp.C22_local",
    "Ecal.Udp.C22_word_size",
    "Ecal.Udp.C22_same_address_on_all_hosts",
    "Ecal.Udp.C22_v1_octets",
    "Ecal.Udp.C22_v1_exact",
    "Ecal.Udp.C22_v1_same_address_on_all_hosts",
    "Ecal.Udp.C22_hash_vectors",
    "Ecal.Udp.C22_v1_never_base_partial",
    "Ecal.Udp.C22_v1_violated_network",
    "Ecal.Udp.C22_v1_violated_base"
   ],
   "note": "network part, text round trip and word-size independence proved for all inputs; never the base address proved when the mask leaves the last bit free (exact iff given); violated for masks covering the last bit and for version 1 networks"
  },
  {
   "property": "C23",
   "status": "partial",
   "theorems": [
    "Ecal.Udp.C23_roundtrip",
    "Ecal.Udp.C23_accepted_slices",
    "Ecal.Udp.C23_overread_iff",
    "Ecal.Udp.C23_violated_overread",
    "Ecal.Udp.C23_violated_long_name",
    "Ecal.Udp.C23_violated_zero_in_name"
   ],
   "note": "round trip for names below 64 KiB without zero bytes; reads beyond the datagram characterised exactly and shown possible (violated)"
  },
  {
   "property": "C24",
   "status": "partial",
   "theorems": [
    "Ecal.Udp.C24_violated_damaged",
    "Ecal.Udp.C24_violated_witness",
    "Ecal.Udp.C24_sender_datagrams_partial",
    "Ecal.Udp.C24_listening_iff"
   ],
   "note": "violated: a receive error ends the loop; exact condition for listening and the case of datagrams from the sender proved"
  },
  {
   "property": "C25",
   "status": "proved",
   "theorems": [
    "Ecal.Udp.C25_membership",
    "Ecal.Udp.C25_live_is_api"
   ],
   "note": "membership iff a live subscriber maps to the group, for all histories of non-overlapping calls (see C61 for overlapping ones)"
  },
  {
   "property": "C26",
   "status": "partial",
   "theorems": [
    "Ecal.Udp.C26_violated",
    "Ecal.Udp.C26_exact",
    "Ecal.Udp.C26_single_subscriber_partial",
    "Ecal.Udp.C26_peer_connected"
   ],
   "note": "violated with two subscribers of a topic; exact characterisation of reception and the one-subscriber case proved"
  },
  {
   "property": "C27",
   "status": "proved",
   "theorems": [
    "Ecal.Wire.C27_roundtrip",
    "Ecal.Wire.C27_injective",
    "Ecal.Wire.C27_violated_reuse",
    "Ecal.Wire.C27_reuse_partial",
    "Ecal.Wire.C27_empty_rejected",
    "Ecal.Wire.C27_varint_as_written",
    "Ecal.Wire.C27_number_range",
    "Ecal.Wire.C27_int32_widens"
   ],
   "note": "Wire-level nanopb model (varints, tags, length-delimited fields, skipping); round trip for every sample below 4 GiB and injectivity; C27_violated_reuse records that a reused target keeps old strings (C27_reuse_partial says when it does not matter). Table-driven encoder/decoder of nanopb is modelled, its generated descriptors are transcribed."
  },
  {
   "property": "C28",
   "status": "proved",
   "theorems": [
    "Ecal.Wire.C28_roundtrip",
    "Ecal.Wire.C28_topic_complete",
    "Ecal.Wire.C28_violated_process_entity_id",
    "Ecal.Wire.C28_violated_osname",
    "Ecal.Wire.C28_violated_reuse",
    "Ecal.Wire.C28_unknown_fields",
    "Ecal.Wire.C28_list_roundtrip",
    "Ecal.Wire.C28_violated_empty_list"
   ],
   "note": "Round trip for every registration of every kind with the transmitted projection stated explicitly (transmitted); lists are appended completely in order; unknown fields of newer senders are ignored. Not transmitted: process entity id, OS name (negations); reused targets and the empty list: negations. Attributes are given as the ascending entry list of a std::map."
  },
  {
   "property": "C29",
   "status": "proved",
   "theorems": [
    "Ecal.Wire.C29_request_roundtrip",
    "Ecal.Wire.C29_response_roundtrip",
    "Ecal.Wire.C29_response_reuse_partial",
    "Ecal.Wire.C29_request_reuse_partial",
    "Ecal.Wire.C29_reused_object_witness",
    "Ecal.Wire.C29_empty_rejected"
   ],
   "note": "Round trip for every request and response below 4 GiB."
  },
  {
   "property": "C30",
   "status": "partial",
   "theorems": [
    "Ecal.Wire.C30_log_roundtrip",
    "Ecal.Wire.C30_violated_default",
    "Ecal.Wire.C30_list_roundtrip",
    "Ecal.Wire.C30_violated_empty_list"
   ],
   "note": "Round trip for every log message with at least one field set and every non-empty list; the all-default message and the empty list serialise to nothing and are rejected (C30_violated_default, C30_violated_empty_list)."
  },
  {
   "property": "C31",
   "status": "partial",
   "theorems": [
    "Ecal.Wire.C31_aligned",
    "Ecal.Wire.C31_overflow_iff",
    "Ecal.Wire.C31_received",
    "Ecal.Wire.C31_violated_large",
    "Ecal.Wire.C31_violated_overread"
   ],
   "note": "Alignment and exact recovery of header and payload proved for every message written; C31_overflow_iff: a header of 64 KiB or more overruns the writer's buffer; C31_violated_large: payloads from 2 GiB on are read with a wrong size; C31_violated_overread: receiver trusts the declared sizes."
  },
  {
   "property": "C32",
   "status": "proved",
   "theorems": [
    "Ecal.Service.C32_prefix",
    "Ecal.Service.C32_complete",
    "Ecal.Service.C32_progress",
    "Ecal.Service.C32_violated_short_header"
   ],
   "note": "every message sequence with headers of at least 16 bytes, every segmentation; a peer announcing a shorter header is shown to desynchronise the reader (C32_violated_short_header)"
  },
  {
   "property": "C33",
   "status": "partial",
   "theorems": [
    "Ecal.Service.Handshake.C33_server_any_message",
    "Ecal.Service.Handshake.C33_agree",
    "Ecal.Service.Handshake.C33_no_common_fails",
    "Ecal.Service.Handshake.C33_server_complete",
    "Ecal.Service.Handshake.C33_connects_partial",
    "Ecal.Service.Handshake.C33_present",
    "Ecal.Service.Handshake.C33_violated_wide_range",
    "Ecal.Service.Handshake.C33_violated_whenever_above_minimum"
   ],
   "note": "safety for every pair of ranges; the handshake connects only on the client's minimum version, enough for today's constants; wider ranges violate the property (C33_violated_*)"
  },
  {
   "property": "C34",
   "status": "proved",
   "theorems": [
    "Ecal.Service.Client.C34_accepted_until_stop",
    "Ecal.Service.Client.C34_at_most_once",
    "Ecal.Service.Client.C34_distinct_calls",
    "Ecal.Service.Client.C34_exactly_once",
    "Ecal.Service.Client.C34_work_decreases",
    "Ecal.Service.Client.C34_bounded",
    "Ecal.Service.Client.C34_refused_after_stop",
    "Ecal.Service.Client.C34_stop_final"
   ],
   "note": "at-most-once and, at rest, exactly-once response per call for every interleaving of calls, I/O completions, failures and stop; termination by a decreasing measure"
  },
  {
   "property": "C35",
   "status": "proved",
   "theorems": [
    "Ecal.Service.Client.C35_matched",
    "Ecal.Service.Client.C35_in_order",
    "Ecal.Service.Client.C35_sent_in_call_order",
    "Ecal.Service.Client.C35_one_in_flight"
   ],
   "note": "responses in call order, each matched with its own request; one request in flight per session"
  },
  {
   "property": "C36",
   "status": "proved",
   "theorems": [
    "Ecal.Service.Server.V1.C36_callback_per_request",
    "Ecal.Service.Server.V1.C36_response_per_call",
    "Ecal.Service.Server.V1.C36_answer_before_next",
    "Ecal.Service.Server.V1.C36_one_outstanding",
    "Ecal.Service.Server.V1.C36_events",
    "Ecal.Service.Server.V1.C36_stop_final",
    "Ecal.Service.Server.V1.C36_failed_is_final"
   ],
   "note": "callback per complete request, one response per call, answered before the next request is read, at most one outstanding"
  },
  {
   "property": "C37",
   "status": "partial",
   "theorems": [
    "Ecal.Service.Server.V0.C37_bytes_conserved",
    "Ecal.Service.Server.V0.C37_violated_segmentation",
    "Ecal.Service.Server.V0.C37_violated_any_split",
    "Ecal.Service.Server.V0.C37_violated_merge",
    "Ecal.Service.Server.V0.C37_whole_request_partial",
    "Ecal.Service.Server.V0.C37_events"
   ],
   "note": "V0 protocol violated: a request split by TCP into segments is executed as several requests and merged ones as one; proved: bytes conserved, and one segment per request works"
  },
  {
   "property": "C38",
   "status": "proved",
   "theorems": [
    "Ecal.Service.Blocking.C38_result",
    "Ecal.Service.Blocking.C38_result_kept",
    "Ecal.Service.Blocking.C38_success",
    "Ecal.Service.Blocking.C38_waits_for_all",
    "Ecal.Service.Blocking.C38_no_timeout_never_gives_up",
    "Ecal.Service.Blocking.C38_timeout_events",
    "Ecal.Service.Blocking.C38_violated_stopped_is_timeout"
   ],
   "note": "all arrival orders and timeouts; finding: a refused call is reported as a timeout event"
  },
  {
   "property": "C39",
   "status": "partial",
   "theorems": [
    "Ecal.Service.Dispatch.C39_executes_registered",
    "Ecal.Service.Dispatch.C39_unknown_fails",
    "Ecal.Service.Dispatch.C39_undecodable_fails",
    "Ecal.Service.Dispatch.C39_counts_once",
    "Ecal.Service.Dispatch.C39_count_is_number_of_requests",
    "Ecal.Service.Dispatch.C39_no_other_execution",
    "Ecal.Service.Dispatch.C39_violated_described_only"
   ],
   "note": "method with a description but no callback crashes (empty function); everything else proved"
  },
  {
   "property": "C40",
   "status": "partial",
   "theorems": [
    "Ecal.Service.ClientConn.C40_notifications_alternate",
    "Ecal.Service.ClientConn.C40_is_connected",
    "Ecal.Service.ClientConn.C40_new_server_gets_session_partial",
    "Ecal.Service.ClientConn.C40_violated_never_reconnects",
    "Ecal.Service.ClientConn.C40_violated_never_reconnects_reachable",
    "Ecal.Service.ClientConn.C40_violated_flapping",
    "Ecal.Service.ClientConn.C40_violated_connected_without_session",
    "Ecal.Service.ClientConn.C40_violated_race",
    "Ecal.Service.ClientConn.C40_known_until_expired",
    "Ecal.Service.ClientConn.C40_expired_gets_no_session",
    "Ecal.Service.Client.C40_session_events",
    "Ecal.Service.Client.C40_violated_connect_after_stop"
   ],
   "note": "alternation proved; reconnect violated: a failed session is never replaced and the notifications flap; connected map accessed without its lock"
  },
  {
   "property": "C41",
   "status": "partial",
   "theorems": [
    "Ecal.Service.ServerEvents.C41_violated_lost_disconnect",
    "Ecal.Service.ServerEvents.C41_violated_next_client_silent",
    "Ecal.Service.ServerEvents.C41_violated_double_disconnect",
    "Ecal.Service.ServerEvents.C41_violated_two_protocols",
    "Ecal.Service.ServerEvents.C41_violated_removed_callback",
    "Ecal.Service.ServerEvents.C41_alternate_partial",
    "Ecal.Service.ServerEvents.C41_last_is_disconnected_partial",
    "Ecal.Service.ServerEvents.C41_no_crash_partial",
    "Ecal.Service.ServerEvents.C41_no_note_without_change"
   ],
   "note": "violated: lost disconnect after a failed handshake, two protocols, removed callback; alternation proved for one protocol with serialised events"
  },
  {
   "property": "C42",
   "status": "proved",
   "theorems": [
    "Ecal.Desc.C42_publishers",
    "Ecal.Desc.C42_subscribers",
    "Ecal.Desc.C42_services",
    "Ecal.Desc.C42_clients",
    "Ecal.Desc.C42_listed_once",
    "Ecal.Desc.C42_runs_iff_ids_numeric"
   ],
   "note": "For every history of registrations, unregistrations and queries with a monotone clock the four listings are characterised exactly by the latest announcement per entity; runs without exception iff all entity ids are numeric."
  },
  {
   "property": "C43",
   "status": "partial",
   "theorems": [
    "Ecal.Desc.C43_topic_type",
    "Ecal.Desc.C43_topics",
    "Ecal.Desc.C43_quality_order",
    "Ecal.Desc.C43_violated_services",
    "Ecal.Desc.C43_violated_services_api",
    "Ecal.Desc.C43_topics_first",
    "Ecal.Desc.C43_services_first",
    "Ecal.Desc.C43_service_method_partial"
   ],
   "note": "Holds for topics (single topic and GetTopics) end to end from the registration history. Violated for GetServices/GetClients (three servers; reachable through the API); the single-method queries never return a dominated description."
  },
  {
   "property": "C44",
   "status": "partial",
   "theorems": [
    "Ecal.Util.C44_split_combine_iff",
    "Ecal.Util.C44_combine_split",
    "Ecal.Util.C44_violated_by_colon_in_type"
   ],
   "note": "Exact iff-characterisation of when split inverts combine; violated for an empty encoding with a colon in the type name (or a colon in the encoding)."
  },
  {
   "property": "C45",
   "status": "partial",
   "theorems": [
    "Ecal.Mon.C45_listing_iff",
    "Ecal.Mon.C45_listing_exact_partial",
    "Ecal.Mon.C45_keys_separate_partial",
    "Ecal.Mon.C45_violated_two_hosts",
    "Ecal.Mon.C45_violated_unregister",
    "Ecal.Mon.C45_violated_digits"
   ],
   "note": "for every history in which no two identities share a key, the listing is exactly the set of registered, not expired, not unregistered entities; keys proved separate for one host, names not ending in a digit and ids of one length; violated otherwise (host not in key, name/id concatenation), with witnesses"
  },
  {
   "property": "C46",
   "status": "partial",
   "theorems": [
    "Ecal.Mon.Filter.C46_tokens",
    "Ecal.Mon.Filter.C46_decision",
    "Ecal.Mon.Filter.C46_filter_partial",
    "Ecal.Mon.Filter.C46_violated_old_patterns_kept",
    "Ecal.Mon.Filter.C46_violated_case_merge",
    "Ecal.Mon.Filter.C46_violated_malformed"
   ],
   "note": "tokenizer, decision, and effect of off/reconfigure/on proved for every history and every case-insensitive matcher; violated: old patterns are kept when switching on again, patterns differing in case are merged, malformed pattern throws"
  },
  {
   "property": "C47",
   "status": "partial",
   "theorems": [
    "Ecal.Sync.Mutex.C47_mutual_exclusion_partial",
    "Ecal.Sync.Mutex.C47_violated_foreign_destroy",
    "Ecal.Sync.Mutex.C47_violated_foreign_unlock",
    "Ecal.Sync.Mutex.C47_recoverable_refuses_foreign_release",
    "Ecal.Sync.Mutex.C47_violated_unlink",
    "Ecal.Sync.Mutex.C47_violated_init_race",
    "Ecal.Sync.Mutex.C47_violated",
    "Ecal.Sync.Mutex.C47_recovers_from_dead_holder",
    "Ecal.Sync.Mutex.C47_violated_dead_holder_blocks"
   ],
   "note": "mutual exclusion for every interleaving (incl. process death) under stated disciplines, only ownership/initialisation order for the recoverable lock; violated: foreign destroy/unlock, owner unlink, initialisation race, dead holder of the plain lock"
  },
  {
   "property": "C48",
   "status": "partial",
   "theorems": [
    "Ecal.Sync.Event.C48_success_consumes",
    "Ecal.Sync.Event.C48_timeout_consumes_nothing",
    "Ecal.Sync.Event.C48_no_duplication",
    "Ecal.Sync.Event.C48_set_kept_until_consumed",
    "Ecal.Sync.Event.C48_wait_on_set_event_succeeds",
    "Ecal.Sync.Event.C48_no_lost_wakeup",
    "Ecal.Sync.Event.C48_violated_sets_merge",
    "Ecal.Sync.Event.C48_violated",
    "Ecal.Sync.Event.C48_violated_init_race",
    "Ecal.Sync.Event.C48_violated_dead_process_blocks",
    "Ecal.Sync.Event.C48_unnamed_exact_partial",
    "Ecal.Sync.Event.C48_unnamed_timeout",
    "Ecal.Sync.Event.C48_violated_counter_wraps",
    "Ecal.Sync.Event.C48_usable_after_init"
   ],
   "note": "named event: no duplication, success consumes, time-out consumes nothing, set kept until consumed, no lost wake-up, for every interleaving; violated: sets merge, initialisation race, death inside; unnamed event exact below 2^32 sets"
  },
  {
   "property": "C49",
   "status": "partial",
   "theorems": [
    "Ecal.Sync.Shutdown.C49_request_seen_by_next_ok_partial",
    "Ecal.Sync.Shutdown.C49_no_spurious_shutdown",
    "Ecal.Sync.Shutdown.C49_violated_ok_again",
    "Ecal.Sync.Shutdown.C49_violated_early_request",
    "Ecal.Sync.Shutdown.C49_violated_second_request",
    "Ecal.Sync.Shutdown.C49_violated_deaf_for_ever"
   ],
   "note": "the request on the object the target uses is seen by its next Ok() in every interleaving, no spurious shutdown; violated: Ok() recovers, early and second requests are lost (for ever)"
  },
  {
   "property": "C50",
   "status": "partial",
   "theorems": [
    "Ecal.Life.C50_initialised_iff_nested_partial",
    "Ecal.Life.C50_components_stay_partial",
    "Ecal.Life.C50_result_code",
    "Ecal.Life.C50_first_and_second_result",
    "Ecal.Life.C50_violated_early_finalize",
    "Ecal.Life.C50_violated_extra_finalize",
    "Ecal.Life.C50_violated_reinitialise_with_same_configuration",
    "Ecal.Life.C50_violated_monitoring_leak",
    "Ecal.Life.C50_violated_ok_without_initialise",
    "Ecal.Life.C50_violated_component_sets",
    "Ecal.Life.C50_last_finalize_clears",
    "Ecal.Life.C50_finalize_result"
   ],
   "note": "refinement to nesting depth and requested components for every proper call history; violated: unbalanced Finalize is counted, re-initialising with the same configuration object dereferences null, Util::ShutdownProcess leaks an Initialize, Ok() before Initialize"
  },
  {
   "property": "C51",
   "status": "partial",
   "theorems": [
    "Ecal.Time.Timer.C51_no_callback_after_stop",
    "Ecal.Time.Timer.C51_no_callback_before_start",
    "Ecal.Time.Timer.C51_no_second_start",
    "Ecal.Time.Timer.C51_negative_period",
    "Ecal.Time.Timer.C51_restart_works",
    "Ecal.Time.Timer.C51_at_most_one_callback_during_stop",
    "Ecal.Time.Timer.C51_stop_returns",
    "Ecal.Time.Timer.C51_violated_stop_in_callback",
    "Ecal.Time.Timer.C51_violated_stop_in_first_callback_ignored"
   ],
   "note": "all interleavings of one controlling thread and the timer thread; violated for Stop called from the callback"
  },
  {
   "property": "C52",
   "status": "partial",
   "theorems": [
    "Ecal.Util.Freq.C52_reported_is_ticks_per_span",
    "Ecal.Util.Freq.C52_window",
    "Ecal.Util.Freq.C52_first_window",
    "Ecal.Util.Freq.C52_drops_to_zero_partial",
    "Ecal.Util.Freq.C52_zero_until_two_ticks",
    "Ecal.Util.Freq.C52_milliHz_partial",
    "Ecal.Util.Freq.C52_violated_overflow",
    "Ecal.Util.Freq.C52_violated_first_query_after_silence",
    "Ecal.Util.Freq.C52_violated"
   ],
   "note": "exact rational model: every reported value is a tick window divided by its span, silence resets; violated: first query after silence, conversion overflow; rounding of doubles is not modelled"
  },
  {
   "property": "C53",
   "status": "partial",
   "theorems": [
    "Ecal.Mon.Log.C53_log_console_udp",
    "Ecal.Mon.Log.C53_log_file",
    "Ecal.Mon.Log.C53_routing_partial",
    "Ecal.Mon.Log.C53_collected_exactly_once",
    "Ecal.Mon.Log.C53_violated_missing_directory",
    "Ecal.Mon.Log.C53_violated_second_start"
   ],
   "note": "routing and exactly-once collection for every history after a successful start; violated: a missing log directory silences all sinks, a second start erases/splits the log file"
  },
  {
   "property": "C54",
   "status": "partial",
   "theorems": [
    "Ecal.Provider.C54_violated_stop_wins",
    "Ecal.Provider.C54_dead_sends_nothing",
    "Ecal.Provider.C54_sent_by_next_cycle_partial",
    "Ecal.Provider.C54_exactly_once_partial",
    "Ecal.Provider.C54_each_cycle_announces_live",
    "Ecal.Provider.C54_triggers",
    "Ecal.Provider.C54_unregister_waits"
   ],
   "note": "Violated: the stop flag wins over the trigger. Proved: the next completed cycle sends it; exactly-once bookkeeping."
  },
  {
   "property": "C55",
   "status": "partial",
   "theorems": [
    "Ecal.Bcast.C55_poll_delivers_partial",
    "Ecal.Bcast.C55_violated_one_bad_file_drops_all",
    "Ecal.Bcast.C55_violated_failed_poll_repeats"
   ],
   "note": "Fails as stated: C55_violated_one_bad_file_drops_all, C55_violated_failed_poll_repeats. Proved when all payload files can be opened and the poll succeeds."
  },
  {
   "property": "C57",
   "status": "partial",
   "theorems": [
    "Ecal.Gate.C57_violated_foreign_confirmation",
    "Ecal.Gate.C57_connected_only_if_announced_partial"
   ],
   "note": "Violated: another subscriber's connection is taken as confirmation (two-process witness). Proved: 'connected' needs an announced connection on the subscriber's side."
  },
  {
   "property": "C58",
   "status": "partial",
   "theorems": [
    "Ecal.Gate.C58_routing",
    "Ecal.Gate.C58_violated_result_of_last_reader"
   ],
   "note": "Routing proved for every history. The result value is violated: it reflects the last reader only."
  },
  {
   "property": "C56",
   "status": "partial",
   "theorems": [
    "Ecal.Writer.C56_violated_layer_started_during_send",
    "Ecal.Writer.C56_all_layers_same_payload_partial",
    "Ecal.Writer.C56_undisturbed_partial"
   ],
   "note": "Violated in zero-copy mode when a layer is started during a send. Proved for all interleavings with zero-copy off (default) and for undisturbed sends in any mode."
  },
  {
   "property": "C59",
   "status": "proved",
   "theorems": [
    "Ecal.Writer.C59_delivered_is_subsequence",
    "Ecal.Writer.C59_lossless_transport_delivers_all"
   ],
   "note": "Composition of the publisher and the subscriber model with an arbitrary transport; default configuration (out-of-order dropping on)."
  },
  {
   "property": "C60",
   "status": "proved",
   "theorems": [
    "Ecal.Provider.C60_unregistration_is_final"
   ],
   "note": "For every interleaving, by invariant."
  },
  {
   "property": "C61",
   "status": "partial",
   "theorems": [
    "Ecal.Udp.C61_violated",
    "Ecal.Udp.C61_sequential_partial"
   ],
   "note": "violated: lost increment; sequential creations proved"
  },
  {
   "property": "C62",
   "status": "partial",
   "theorems": [
    "Ecal.Wire.C62_received_partial",
    "Ecal.Wire.C62_single_partial",
    "Ecal.Wire.C62_violated",
    "Ecal.Wire.C62_last_pass_partial"
   ],
   "note": "Violated: after each message of a batch the whole prefix of the batch is applied again (C62_received_partial gives the exact sequence, C62_violated a witness); single messages are applied once; the last pass applies the batch in order. Damaged messages are excluded."
  },
  {
   "property": "C63",
   "status": "partial",
   "theorems": [
    "Ecal.Wire.C63_appended",
    "Ecal.Wire.C63_roundtrip_partial",
    "Ecal.Wire.C63_injective",
    "Ecal.Wire.C63_selection",
    "Ecal.Wire.C63_query_partial",
    "Ecal.Wire.C63_violated_empty",
    "Ecal.Wire.C63_violated_direction"
   ],
   "note": "Round trip, injectivity and entity choice for every proper snapshot below 4 GiB; missing: the snapshot without entities serialises to nothing and is rejected (C63_violated_empty), a topic whose direction text does not match its list disappears (C63_violated_direction; the monitor never produces one). A used target is appended to, stated exactly (C63_appended)."
  },
  {
   "property": "C64",
   "status": "partial",
   "theorems": [
    "Ecal.Config.C64_defaults_partial",
    "Ecal.Config.C64_lists_named",
    "Ecal.Config.C64_sections_untouched",
    "Ecal.Config.C64_levels",
    "Ecal.Config.C64_violated_priority",
    "Ecal.Config.C64_violated_level",
    "Ecal.Config.C64_violated_drop",
    "Ecal.Config.C64_drop_ignored"
   ],
   "note": "Priority lists, log levels and drop_out_of_order_messages are excluded: for these the property is violated (C64_violated_*). yaml-cpp itself (text to node tree, as<T>) is trusted."
  },
  {
   "property": "C65",
   "status": "partial",
   "theorems": [
    "Ecal.Config.C65_layers_converted",
    "Ecal.Config.C65_write_read_partial",
    "Ecal.Config.C65_merge_partial",
    "Ecal.Config.C65_merge_transport",
    "Ecal.Config.C65_violated_levels",
    "Ecal.Config.C65_violated_registration_layer",
    "Ecal.Config.C65_violated_drop",
    "Ecal.Config.C65_violated_transport",
    "Ecal.Config.C65_violated_empty_section",
    "Ecal.Config.C65_level_names"
   ],
   "note": "Transport layer and registration layer settings, log levels and drop_out_of_order_messages are excluded: violated (C65_violated_*). Files have no duplicate keys and sections are maps; empty sections violate the property."
  },
  {
   "property": "C66",
   "status": "partial",
   "theorems": [
    "Ecal.Config.C66_dump_load_partial",
    "Ecal.Config.C66_violated_tcp",
    "Ecal.Config.C66_violated_drop",
    "Ecal.Config.C66_violated_backslash"
   ],
   "note": "publisher.layer.tcp.enable and drop_out_of_order_messages are excluded, texts contain no quotes, backslashes or line breaks: otherwise violated (C66_violated_*)."
  },
  {
   "property": "C67",
   "status": "partial",
   "theorems": [
    "Ecal.Shm.Ack.C67_acknowledged_partial",
    "Ecal.Shm.Ack.C67_quiet_between",
    "Ecal.Shm.Ack.C67_violated_late_ack",
    "Ecal.Shm.Ack.C67_late_not_waited",
    "Ecal.Shm.Ack.C67_bounded_wait",
    "Ecal.Shm.Ack.C67_late_is_marked",
    "Ecal.Shm.Ack.C67_stale_signal"
   ],
   "note": "For every interleaving in which the process never exceeded the waiting time, a returned send has been processed by it (C67_acknowledged_partial) and nothing is left over for the next send; the total wait is bounded. Violated after a timeout followed by a renewed registration: C67_violated_late_ack."
  },
  {
   "property": "C68",
   "status": "partial",
   "theorems": [
    "Ecal.Shm.Grow.C68_grows_partial",
    "Ecal.Shm.Grow.C68_sent_has_room",
    "Ecal.Shm.Grow.C68_announced_partial",
    "Ecal.Shm.Grow.C68_violated_silent",
    "Ecal.Shm.Grow.C68_violated_not_announced",
    "Ecal.Shm.Grow.C68_violated_division",
    "Ecal.Shm.Grow.C68_violated_unsubscribe"
   ],
   "note": "While the creation of memory files succeeds every lockable send succeeds and no process is lost (C68_grows_partial), success always means enough room, and names in use are announced while no lock fails. Violated: one failed creation silences the publisher for ever, a replacement after a failed lock is not announced, failed creation at start leads to a division by zero, ended subscriptions are never removed."
  },
  {
   "property": "C69",
   "status": "partial",
   "theorems": [
    "Ecal.Config.C69_accepts_iff",
    "Ecal.Config.C69_usual_form",
    "Ecal.Config.C69_assignment",
    "Ecal.Config.C69_value_partial",
    "Ecal.Config.C69_violated_hex",
    "Ecal.Config.C69_violated_ambiguous",
    "Ecal.Config.C69_violated_mask",
    "Ecal.Config.C69_violated_leading_zero",
    "Ecal.Config.C69_integer",
    "Ecal.Config.C69_integer_else",
    "Ecal.Config.C69_integer_default",
    "Ecal.Config.C69_violated_integer_default"
   ],
   "note": "Acceptance and assignment proved for all texts; the value of an accepted address only for decimal octets (violated for hexadecimal, ambiguous and padded ones)."
  },
  {
   "property": "C70",
   "status": "partial",
   "theorems": [
    "Ecal.Util.Thread.C70_no_overlap",
    "Ecal.Util.Thread.C70_trigger_served",
    "Ecal.Util.Thread.C70_trigger_not_lost",
    "Ecal.Util.Thread.C70_stopped",
    "Ecal.Util.Thread.C70_stop_returns",
    "Ecal.Util.Thread.C70_no_spurious",
    "Ecal.Util.Thread.C70_violated_restart",
    "Ecal.Util.Thread.C70_violated_self_stop",
    "Ecal.Util.Thread.C70_violated_second_start"
   ],
   "note": "Exclusion, trigger and stop proved for all interleavings of one start; restart, self stop and second start violate the expectation."
  },
  {
   "property": "C71",
   "status": "partial",
   "theorems": [
    "Ecal.Text.C71_parts_clean",
    "Ecal.Text.C71_nothing_lost",
    "Ecal.Text.C71_split_exact",
    "Ecal.Text.C71_split_join",
    "Ecal.Text.C71_violated_empty_part",
    "Ecal.Text.C71_quoted_partial",
    "Ecal.Text.C71_quoted_keep_partial",
    "Ecal.Text.C71_violated_last_empty",
    "Ecal.Text.C71_violated_keep_empty",
    "Ecal.Text.C71_words"
   ],
   "note": "Split/join proved for all texts; quoted splitting for words that need no escapes beyond the code's own; trailing empty words are lost."
  },
  {
   "property": "C72",
   "status": "partial",
   "theorems": [
    "Ecal.Text.C72_replace",
    "Ecal.Text.C72_replaced_unique",
    "Ecal.Text.C72_replace_self",
    "Ecal.Text.C72_empty_pattern",
    "Ecal.Text.C72_replace_throws",
    "Ecal.Text.C72_trim",
    "Ecal.Text.C72_trim_idem",
    "Ecal.Text.C72_center",
    "Ecal.Text.C72_html_roundtrip",
    "Ecal.Text.C72_html_safe",
    "Ecal.Text.C72_icompare_partial",
    "Ecal.Text.C72_violated_non_ascii",
    "Ecal.Text.C72_find"
   ],
   "note": "Replace, trim, centre and escape proved for all texts; comparison for ASCII texts (undefined for others)."
  },
  {
   "property": "C73",
   "status": "partial",
   "theorems": [
    "Ecal.Text.Path.C73_clean_absolute",
    "Ecal.Text.Path.C73_clean_meaning_partial",
    "Ecal.Text.Path.C73_clean_undefined",
    "Ecal.Text.Path.C73_violated_undefined",
    "Ecal.Text.Path.C73_violated_dot",
    "Ecal.Text.Path.C73_clean_idem",
    "Ecal.Text.Path.C73_violated_drive",
    "Ecal.Text.Path.C73_absolute_partial",
    "Ecal.Text.Path.C73_equal_partial",
    "Ecal.Text.Path.C73_violated_backslash",
    "Ecal.Text.Path.C73_violated_root_directory",
    "Ecal.Text.Path.C73_relative_partial",
    "Ecal.Text.Path.C73_violated_relative",
    "Ecal.Text.Path.C73_file_name",
    "Ecal.Text.Path.C73_violated_file_name"
   ],
   "note": "Unix style: absolute paths exactly, relative paths except './…/..'; absolute, relative and equal paths under stated conditions; the exceptions are proved to be violations."
  },
  {
   "property": "C74",
   "status": "partial",
   "theorems": [
    "Ecal.Time.Gate.C74_no_null_call_partial",
    "Ecal.Time.Gate.C74_violated_incomplete",
    "Ecal.Time.Gate.C74_violated_second_start",
    "Ecal.Time.Gate.C74_finalised_partial",
    "Ecal.Time.Gate.C74_violated_mode_change",
    "Ecal.Time.Gate.C74_clock_partial",
    "Ecal.Time.Gate.C74_clock_without_plugin",
    "Ecal.Time.Gate.C74_violated_shipped",
    "Ecal.Time.Gate.C74_violated_failed_initialisation",
    "Ecal.Time.Gate.C74_sleep_partial",
    "Ecal.Time.Gate.C74_violated_sleep_twice",
    "Ecal.Time.Gate.C74_violated_dump"
   ],
   "note": "Complete plug-ins, real-time mode, build with the time gate enabled; the shipped build never asks the plug-in, waits are done twice, incomplete plug-ins call null pointers: proved as violations."
  },
  {
   "property": "C75",
   "status": "partial",
   "theorems": [
    "Ecal.Service.Managers.C75_count",
    "Ecal.Service.Managers.C75_stop_reaches_all",
    "Ecal.Service.Managers.C75_no_creation_after_stop",
    "Ecal.Service.Managers.C75_nothing_after_stop",
    "Ecal.Service.Managers.C75_get",
    "Ecal.Service.Managers.C75_one_manager",
    "Ecal.Service.Managers.C75_stop_returns_partial",
    "Ecal.Service.Managers.C75_violated_deadlock",
    "Ecal.Service.Managers.C75_violated_self_stop",
    "Ecal.Service.Managers.C75_self_stop_iff"
   ],
   "note": "The shutdown returns unless a callback asks for a manager while the lock is held or shuts down itself (C75_violated_*)."
  },
  {
   "property": "C76",
   "status": "partial",
   "theorems": [
    "Ecal.Service.Accept.C76_keeps_accepting_partial",
    "Ecal.Service.Accept.C76_stopped_partial",
    "Ecal.Service.Accept.C76_violated_stop_race",
    "Ecal.Service.Accept.C76_violated_error",
    "Ecal.Service.Accept.C76_session_has_client"
   ],
   "note": "Serving is proved without accept errors; stopping without an accepted connection waiting for its handler; both exceptions are violations."
  },
  {
   "property": "C77",
   "status": "partial",
   "theorems": [
    "Ecal.Service.Pool.C77_answered_partial",
    "Ecal.Service.Pool.C77_with_limits",
    "Ecal.Service.Pool.C77_violated_parallel",
    "Ecal.Service.Pool.C77_violated_depth"
   ],
   "note": "Proved while fewer than four callbacks wait without a limit, and always when nested calls have limits; four waiting callbacks block the process for ever (C77_violated_*)."
  },
  {
   "property": "C78",
   "status": "partial",
   "theorems": [
    "Ecal.Capi.C78_copy_partial",
    "Ecal.Capi.C78_alloc_partial",
    "Ecal.Capi.C78_text_partial",
    "Ecal.Capi.C78_nothing",
    "Ecal.Capi.C78_violated_zero_length",
    "Ecal.Capi.C78_violated_big",
    "Ecal.Capi.C78_violated_endless",
    "Ecal.Capi.C78_violated_empty",
    "Ecal.Capi.C78_violated_dangling",
    "Ecal.Capi.C78_violated_no_memory",
    "Ecal.Capi.C78_violated_lost",
    "Ecal.Capi.C78_call_partial",
    "Ecal.Capi.C78_violated_second_server",
    "Ecal.Capi.C78_violated_empty_response",
    "Ecal.Capi.C78_ids_partial",
    "Ecal.Capi.C78_violated_negative_number"
   ],
   "note": "Exact for non-empty data below 2 GB and honest non-zero lengths; the other cases are violations with witnesses."
  },
  {
   "property": "C79",
   "status": "partial",
   "theorems": [
    "Ecal.Capi.Lock.C79_exclusive",
    "Ecal.Capi.Lock.C79_served_partial",
    "Ecal.Capi.Lock.C79_violated_nested",
    "Ecal.Capi.Lock.C79_at_most_four_threads"
   ],
   "note": "Exclusion proved for all runs; progress only for callbacks that make no calls themselves (C79_violated_nested)."
  },
  {
   "property": "C80",
   "status": "partial",
   "theorems": [
    "Ecal.Reader.Wait.C80_no_lost_wakeup",
    "Ecal.Reader.Wait.C80_each_sample_once",
    "Ecal.Reader.Wait.C80_results_are_handed",
    "Ecal.Reader.Wait.C80_poll_returns",
    "Ecal.Reader.Wait.C80_limit_returns",
    "Ecal.Reader.Wait.C80_no_early_return",
    "Ecal.Reader.Wait.C80_violated_stop_leaves_receiver",
    "Ecal.Reader.Wait.C80_violated_destroy_under_receiver",
    "Ecal.Reader.Wait.C80_destroy_partial",
    "Ecal.Reader.Wait.C80_violated_callback_takes_samples",
    "Ecal.Reader.Wait.C80_sample_without_receiver"
   ],
   "note": "Wake-ups, hand-outs and time limits are proved for every execution; the end of the subscriber is violated: Stop neither wakes nor ends waiting receivers, and the destruction under a waiting receiver is undefined behaviour; a receive callback takes the samples away from waiting receivers."
  },
  {
   "property": "C81",
   "status": "partial",
   "theorems": [
    "Ecal.Sync.ApiLocks.C81_no_deadlock_partial",
    "Ecal.Sync.ApiLocks.C81_completes_partial",
    "Ecal.Sync.ApiLocks.C81_create_in_receive_partial",
    "Ecal.Sync.ApiLocks.C81_violated_other_calls",
    "Ecal.Sync.ApiLocks.C81_violated_send_on_connect",
    "Ecal.Sync.ApiLocks.C81_violated_mutual"
   ],
   "note": "Proved for every system whose callbacks keep to a table of calls (a second table without Finalize); the table is maximal: each other call of each callback has a concrete deadlock (one pair, which would need two send threads, is left open)."
  },
  {
   "property": "C82",
   "status": "partial",
   "theorems": [
    "Ecal.Text.CmdLine.C82_roundtrip_partial",
    "Ecal.Text.CmdLine.C82_violated_tab",
    "Ecal.Text.CmdLine.C82_violated_line_feed",
    "Ecal.Text.CmdLine.C82_split_lossless",
    "Ecal.Text.CmdLine.C82_split_argv",
    "Ecal.Text.CmdLine.C82_violated_parts",
    "Ecal.Text.CmdLine.C82_split_roundtrip_partial"
   ],
   "note": "round trip exactly if every argument with white space contains a blank; splitting is lossless and agrees with taking apart for every text; violated by arguments with a tab or line feed and no blank, which are not quoted"
  },
  {
   "property": "C83",
   "status": "partial",
   "theorems": [
    "Ecal.Proc.C83_result_value",
    "Ecal.Proc.C83_started_partial",
    "Ecal.Proc.C83_not_started_partial",
    "Ecal.Proc.C83_no_files_partial",
    "Ecal.Proc.C83_returns",
    "Ecal.Proc.C83_block_partial",
    "Ecal.Proc.C83_violated_block",
    "Ecal.Proc.C83_violated_lock_file",
    "Ecal.Proc.C83_violated_interrupt_lock",
    "Ecal.Proc.C83_violated_slow",
    "Ecal.Proc.C83_violated_fifo",
    "Ecal.Proc.C83_violated_fork",
    "Ecal.Proc.C83_violated_hang"
   ],
   "note": "a process id means started if the lock file can be created and no signal interrupts; 0 means never started if the FIFO can be created and the grandchild is fast; the call always returns; violated: blocking start does not block, failures of lock file and FIFO, slow grandchild, signals, files left after a failed fork, a grandchild that hangs for ever"
  },
  {
   "property": "C84",
   "status": "partial",
   "theorems": [
    "Ecal.Life.Fin.C84_safe_iff",
    "Ecal.Life.Fin.C84_finalize_partial",
    "Ecal.Life.Fin.C84_violated_payload_threads",
    "Ecal.Life.Fin.C84_violated_udp",
    "Ecal.Life.Fin.C84_ends"
   ],
   "note": "Safe for service, registration, observer and log threads; violated for the UDP and TCP payload threads, which Finalize does not wait for"
  },
  {
   "property": "C85",
   "status": "partial",
   "theorems": [
    "Ecal.Service.MgrStop.C85_stopped_quiet",
    "Ecal.Service.MgrStop.C85_exclusive",
    "Ecal.Service.MgrStop.C85_stop_returns_partial",
    "Ecal.Service.MgrStop.C85_stop_no_requests_partial",
    "Ecal.Service.MgrStop.C85_violated_deadlock",
    "Ecal.Service.MgrStop.C85_violated_two_stops",
    "Ecal.Service.MgrStop.C85_violated_own_thread",
    "Ecal.Service.MgrStop.C85_terminated"
   ],
   "note": "Quiet after stopping; stop can return exactly if no service callback waits for the manager; violated: deadlock and termination with callbacks that create servers, connect clients or finalise"
  },
  {
   "property": "C86",
   "status": "partial",
   "theorems": [
    "Ecal.Sync.SvcLocks.C86_no_deadlock_partial",
    "Ecal.Sync.SvcLocks.C86_completes_partial",
    "Ecal.Sync.SvcLocks.C86_violated_other_calls",
    "Ecal.Sync.SvcLocks.C86_violated_call_on_disconnect"
   ],
   "note": "No deadlock for the calls of a table, for all threads and nestings; every other call can deadlock (concrete schedules)"
  },
  {
   "property": "C87",
   "status": "partial",
   "theorems": [
    "Ecal.Sync.WriterRaces.C87_locked",
    "Ecal.Sync.WriterRaces.C87_race_free_partial",
    "Ecal.Sync.WriterRaces.C87_quiet",
    "Ecal.Sync.WriterRaces.C87_race_iff",
    "Ecal.Sync.WriterRaces.C87_two_sends",
    "Ecal.Sync.WriterRaces.C87_violated_library",
    "Ecal.Sync.WriterRaces.C87_violated_send",
    "Ecal.Sync.WriterRaces.C87_destroy_covers_finalize"
   ],
   "note": "Sound lockset analysis for all threads and schedules and an exact table of the operations that race; the property itself is violated"
  },
  {
   "property": "C88",
   "status": "partial",
   "theorems": [
    "Ecal.Sync.ReaderRaces.C88_locked",
    "Ecal.Sync.ReaderRaces.C88_race_free_partial",
    "Ecal.Sync.ReaderRaces.C88_quiet",
    "Ecal.Sync.ReaderRaces.C88_destroy",
    "Ecal.Sync.ReaderRaces.C88_race_iff",
    "Ecal.Sync.ReaderRaces.C88_violated_library",
    "Ecal.Sync.ReaderRaces.C88_violated_setters",
    "Ecal.Sync.ReaderRaces.C88_destroy_covers_finalize"
   ],
   "note": "Sound lockset analysis for all threads and schedules and an exact table of the operations that race; the property itself is violated"
  },
  {
   "property": "C89",
   "status": "partial",
   "theorems": [
    "Ecal.Sync.ClientRaces.C89_locked",
    "Ecal.Sync.ClientRaces.C89_race_free_partial",
    "Ecal.Sync.ClientRaces.C89_quiet",
    "Ecal.Sync.ClientRaces.C89_destroy",
    "Ecal.Sync.ClientRaces.C89_race_iff",
    "Ecal.Sync.ClientRaces.C89_violated_library",
    "Ecal.Sync.ClientRaces.C89_violated_connected",
    "Ecal.Sync.ClientRaces.C89_violated_finalize",
    "Ecal.Sync.ClientRaces.C89_violated_host",
    "Ecal.Sync.ClientRaces.C89_destroy_covers_finalize"
   ],
   "note": "Sound lockset analysis for all threads and schedules and an exact table of the operations that race; the property itself is violated"
  },
  {
   "property": "C90",
   "status": "partial",
   "theorems": [
    "Ecal.Sync.ServerRaces.C90_locked",
    "Ecal.Sync.ServerRaces.C90_race_free_partial",
    "Ecal.Sync.ServerRaces.C90_quiet",
    "Ecal.Sync.ServerRaces.C90_race_iff",
    "Ecal.Sync.ServerRaces.C90_violated_destroy",
    "Ecal.Sync.ServerRaces.C90_violated_create",
    "Ecal.Sync.ServerRaces.C90_violated_finalize",
    "Ecal.Sync.ServerRaces.C90_finalize_requests"
   ],
   "note": "Sound lockset analysis for all threads and schedules and an exact table of the operations that race; the property itself is violated"
  },
  {
   "property": "C91",
   "status": "partial",
   "theorems": [
    "Ecal.Service.ClientNotify.C91_latest_callback",
    "Ecal.Service.ClientNotify.C91_call_throws_iff",
    "Ecal.Service.ClientNotify.C91_announce_terminates_iff",
    "Ecal.Service.ClientNotify.C91_cycle_terminates_iff",
    "Ecal.Service.ClientNotify.C91_no_removal_partial",
    "Ecal.Service.ClientNotify.C91_alternate_partial",
    "Ecal.Service.ClientNotify.C91_violated_connected",
    "Ecal.Service.ClientNotify.C91_violated_disconnected",
    "Ecal.Service.ClientNotify.C91_violated_timeout",
    "Ecal.Service.ClientNotify.C91_violated_remove_only",
    "Ecal.Service.ClientNotify.C91_forgotten",
    "Ecal.Service.ClientNotify.C91_silent_after_stop"
   ],
   "note": "Right callback for every history and exact conditions for exceptions; without removals nothing ever fails; violated: a removed callback throws or terminates the process"
  },
  {
   "property": "C92",
   "status": "proved",
   "theorems": [
    "Ecal.Service.ClientV0.C92_accepted_until_stop",
    "Ecal.Service.ClientV0.C92_at_most_once",
    "Ecal.Service.ClientV0.C92_distinct_calls",
    "Ecal.Service.ClientV0.C92_exactly_once",
    "Ecal.Service.ClientV0.C92_work_decreases",
    "Ecal.Service.ClientV0.C92_bounded",
    "Ecal.Service.ClientV0.C92_refused_after_stop",
    "Ecal.Service.ClientV0.C92_stop_final",
    "Ecal.Service.ClientV0.C92_matched",
    "Ecal.Service.ClientV0.C92_in_order",
    "Ecal.Service.ClientV0.C92_sent_in_call_order",
    "Ecal.Service.ClientV0.C92_one_in_flight",
    "Ecal.Service.ClientV0.C92_events"
   ],
   "note": "Every interleaving; the responses are matched by their position on the connection (splitting and merging of requests on the server side is C37)."
  },
  {
   "property": "C93",
   "status": "partial",
   "theorems": [
    "Ecal.Service.SessionStop.C93_threads_end_partial",
    "Ecal.Service.SessionStop.C93_work_decreases",
    "Ecal.Service.SessionStop.C93_no_new_session",
    "Ecal.Service.SessionStop.C93_violated_destroyed_while_connecting",
    "Ecal.Service.SessionStop.C93_violated_second_host"
   ],
   "note": "Proved when every session is stopped after its connection was set up; violated with either protocol for a client destroyed while it connects: its connection stays open, the manager cannot reach it and Finalize waits for the server for ever"
  },
  {
   "property": "C94",
   "status": "partial",
   "theorems": [
    "Ecal.Shm.Pool.C94_never_terminates",
    "Ecal.Shm.Pool.C94_request_answered",
    "Ecal.Shm.Pool.C94_request_keeps_alive_partial",
    "Ecal.Shm.Pool.C94_renewed",
    "Ecal.Shm.Pool.C94_alive_processes",
    "Ecal.Shm.Pool.C94_cleanup",
    "Ecal.Shm.Pool.C94_violated_restart_is_useless",
    "Ecal.Shm.Pool.C94_violated_request_while_leaving",
    "Ecal.Shm.Pool.C94_stop_empties",
    "Ecal.Shm.Pool.C94_stop_ends_observer",
    "Ecal.Shm.Pool.C94_observer_not_stuck",
    "Ecal.Shm.Pool.C94_unused_observer_ends",
    "Ecal.Shm.Pool.C94_silent_after_stop_partial",
    "Ecal.Shm.Pool.C94_violated_observer_after_stop",
    "Ecal.Shm.Pool.C94_stop_gets_past_cleaner"
   ],
   "note": "Proved for requests that find no observer or one in its loop, for every interleaving; violated: a timed out observer that is restarted before the cleanup ends again at once, a request can come between the last check and the end of an observer, and a request overtaken by the stop starts an observer in the stopped pool"
  },
  {
   "property": "C95",
   "status": "partial",
   "theorems": [
    "Ecal.Service.Targets.C95_call_targets",
    "Ecal.Service.Targets.C95_never_throws",
    "Ecal.Service.Targets.C95_refreshed_server_called_partial",
    "Ecal.Service.Targets.C95_violated_slow_registration",
    "Ecal.Service.Targets.C95_violated_dead_server_called",
    "Ecal.Service.Targets.C95_keys_distinct_partial",
    "Ecal.Service.Targets.C95_violated_ambiguous_key",
    "Ecal.Service.Targets.C95_session_belongs_to_server",
    "Ecal.Service.Targets.C95_protocol_fits_port_partial",
    "Ecal.Service.Targets.C95_violated_version_wraps",
    "Ecal.Service.Targets.C95_call_counts"
   ],
   "note": "Targets characterised exactly for every history; violated: the table of servers has a fixed timeout of five seconds instead of the configured one, and a vanished server stays a target until some service registers again"
  },
  {
   "property": "C96",
   "status": "partial",
   "theorems": [
    "Ecal.Config.Search.C96_first_candidate",
    "Ecal.Config.Search.C96_loaded_exists",
    "Ecal.Config.Search.C96_full_path_partial",
    "Ecal.Config.Search.C96_violated_full_path",
    "Ecal.Config.Search.C96_active_file_partial",
    "Ecal.Config.Search.C96_violated_active_file",
    "Ecal.Config.Search.C96_violated_config_path",
    "Ecal.Config.Search.C96_config_path_partial",
    "Ecal.Config.Search.C96_defined_iff",
    "Ecal.Config.Search.C96_violated_null_pointer",
    "Ecal.Config.Search.C96_log_path",
    "Ecal.Config.Search.C96_home_and_log_path",
    "Ecal.Config.Search.C96_violated_no_home"
   ],
   "note": "The loaded file is exactly the first existing candidate of the documented order. Violated: a full path can be shadowed below the working directory or ECAL_DATA, the reported active file ignores the working directory and the command line, the configuration path is empty when ECAL_DATA is unset and the working directory holds ecal.yaml, and a removed working directory or a user without entry is undefined behaviour. TCLAP and the file system are given by their results."
  },
  {
   "property": "C97",
   "status": "partial",
   "theorems": [
    "Ecal.Proto.Filter.C97_accepts_documented_partial",
    "Ecal.Proto.Filter.C97_violated_nested_array",
    "Ecal.Proto.Filter.C97_erase_exact_partial",
    "Ecal.Proto.Filter.C97_erase_keeps_others",
    "Ecal.Proto.Filter.C97_violated_erase_prefix",
    "Ecal.Proto.Filter.C97_violated_erase_parent",
    "Ecal.Proto.Filter.C97_violated_erase_undefined",
    "Ecal.Proto.Filter.C97_complex_plain",
    "Ecal.Proto.Filter.C97_complex_one_index",
    "Ecal.Proto.Filter.C97_violated_two_indices",
    "Ecal.Proto.Filter.C97_violated_index_hides_star"
   ],
   "note": "Accepted names are exact for insertions without nested arrays; an erased name that is no prefix of another is removed exactly. The filter leaves out arrays below the first level, removes names that share a beginning, keeps parents, dereferences the end of the set for unknown names, and mixes up names with two indices."
  },
  {
   "property": "C98",
   "status": "partial",
   "theorems": [
    "Ecal.Proto.Decoder.C98_exact",
    "Ecal.Proto.Decoder.C98_no_filter",
    "Ecal.Proto.Decoder.C98_balanced",
    "Ecal.Proto.Decoder.C98_names_distinct",
    "Ecal.Proto.Decoder.C98_filter_partial",
    "Ecal.Proto.Decoder.C98_violated_array_unreachable",
    "Ecal.Proto.Decoder.C98_violated_array_silent",
    "Ecal.Proto.Decoder.C98_dimensions"
   ],
   "note": "Reported values, order, names and nesting are exact for every message and every visitor; a set of names selects exactly the named elements as long as no name has an index. Elements of arrays below the first level cannot be selected. Sub messages whose fields all have default values are not reported (by design of the code)."
  },
  {
   "property": "C99",
   "status": "partial",
   "theorems": [
    "Ecal.Proto.TypeDesc.C99_only_needed",
    "Ecal.Proto.TypeDesc.C99_describe_returns",
    "Ecal.Proto.TypeDesc.C99_complete_partial",
    "Ecal.Proto.TypeDesc.C99_receiver_finds_partial",
    "Ecal.Proto.TypeDesc.C99_violated_unseen_import",
    "Ecal.Proto.TypeDesc.C99_violated_unseen_import_receiver",
    "Ecal.Proto.TypeDesc.C99_violated_umbrella",
    "Ecal.Proto.TypeDesc.C99_violated_service_import",
    "Ecal.Proto.TypeDesc.C99_violated_same_name",
    "Ecal.Proto.TypeDesc.C99_violated_nested",
    "Ecal.Proto.TypeDesc.C99_violated_old_type",
    "Ecal.Proto.TypeDesc.C99_violated_exponential"
   ],
   "note": "Descriptions contain only needed files, each once, and are made in finitely many steps; they are complete and in order, and the subscriber finds the type, if every import has a message type (or an enumeration or service and no imports), the type is topmost and no needed file begins with a message of the same name. The other cases fail, and the number of steps is exponential in the import depth."
  },
  {
   "property": "C100",
   "status": "partial",
   "theorems": [
    "Ecal.Proto.Dynamic.C100_delivers_partial",
    "Ecal.Proto.Dynamic.C100_unknown_reported",
    "Ecal.Proto.Dynamic.C100_message_survives",
    "Ecal.Proto.Dynamic.C100_unusable_reported",
    "Ecal.Proto.Dynamic.C100_move_delivers",
    "Ecal.Proto.Dynamic.C100_violated_type_frozen",
    "Ecal.Proto.Dynamic.C100_violated_restart",
    "Ecal.Proto.Dynamic.C100_violated_malformed",
    "Ecal.Proto.Dynamic.C100_violated_json_terminates",
    "Ecal.Proto.Dynamic.C100_violated_move",
    "Ecal.Proto.Dynamic.C100_no_callback",
    "Ecal.Proto.Dynamic.C100_removed_is_silent",
    "Ecal.Proto.Dynamic.C100_no_error_callback"
   ],
   "note": "Messages are delivered exactly for an unchanged, usable type and well-formed data; messages without known type are reported. Violated: the type is frozen at the first message, malformed data is delivered as a message, JSON terminates the process by a thrown pointer, a move loses the error callback."
  },
  {
   "property": "C101",
   "status": "partial",
   "theorems": [
    "Ecal.Msg.Typed.C101_received_were_sent_partial",
    "Ecal.Msg.Typed.C101_writer_received_were_sent",
    "Ecal.Msg.Typed.C101_send_reaches_all",
    "Ecal.Msg.Typed.C101_violated_empty_message",
    "Ecal.Msg.Typed.C101_violated_stale_message",
    "Ecal.Msg.Typed.C101_buffer_failure_not_sent",
    "Ecal.Msg.Typed.C101_violated_bytes_sent",
    "Ecal.Msg.Typed.C101_not_created_sends_nothing",
    "Ecal.Msg.Typed.C101_every_send_counted"
   ],
   "note": "Subsequence and completeness proved for well-behaved message types; violated when a subscriber connects inside a send of a CMsgPublisher, for failing payload writers, and for the returned number of bytes."
  },
  {
   "property": "C102",
   "status": "partial",
   "theorems": [
    "Ecal.Shm.Partial.C102_several_files_partial",
    "Ecal.Shm.Partial.C102_no_partial_write_partial",
    "Ecal.Shm.Partial.C102_one_file_partial",
    "Ecal.Shm.Partial.C102_violated_growing",
    "Ecal.Shm.Partial.C102_grown_beyond_file",
    "Ecal.Shm.Partial.C102_violated_failed_write",
    "Ecal.Shm.Partial.C102_violated_other_content",
    "Ecal.Shm.Partial.C102_files_in_turn"
   ],
   "note": "Proved for several memory files, for payloads without partial writes, and for one file with payloads of equal size; violated for growing payloads, failed writes and other content in between."
  },
  {
   "property": "C103",
   "status": "partial",
   "theorems": [
    "Ecal.Msg.Owner.C103_never_freed_partial",
    "Ecal.Msg.Owner.C103_no_race_partial",
    "Ecal.Msg.Owner.C103_delivered",
    "Ecal.Msg.Owner.C103_move_keeps",
    "Ecal.Msg.Owner.C103_removed_is_silent",
    "Ecal.Msg.Owner.C103_remove_unbinds",
    "Ecal.Msg.Owner.C103_violated_move_race",
    "Ecal.Msg.Owner.C103_violated_move_loses",
    "Ecal.Msg.Owner.C103_violated_empty_callback",
    "Ecal.Msg.Owner.C103_violated_old_destructor",
    "Ecal.Msg.Owner.C103_violated_self_move"
   ],
   "note": "No use of destroyed objects for non-empty callbacks and the current class; no race without moves; violated for moves (race, lost samples), empty callbacks, the older class and self assignment."
  },
  {
   "property": "C104",
   "status": "proved",
   "theorems": [
    "Ecal.E2E.C104_delivered_is_subsequence",
    "Ecal.E2E.C104_lossless_network",
    "Ecal.E2E.C104_violated_deaf"
   ],
   "note": "Composition of publisher, serialisation, framing, parsing, routing and subscriber over arbitrary bytes of the network; C104_violated_deaf: one damaged datagram stops UDP reception for good."
  },
  {
   "property": "C105",
   "status": "proved",
   "theorems": [
    "Ecal.E2E.Shm.C105_delivered_is_subsequence",
    "Ecal.E2E.Shm.C105_new_sample_delivered",
    "Ecal.E2E.Shm.C105_violated_zero_copy_check"
   ],
   "note": "Composition of publisher, header bytes, memory files, observers and subscriber. C105_violated_zero_copy_check: the size check of the zero-copy path forgets the header."
  },
  {
   "property": "C106",
   "status": "partial",
   "theorems": [
    "Ecal.E2E.Disc.C106_subscriber_announced",
    "Ecal.E2E.Disc.C106_publisher_announced",
    "Ecal.E2E.Disc.C106_find_each_other",
    "Ecal.E2E.Disc.C106_publisher_forgets_partial",
    "Ecal.E2E.Disc.C106_subscriber_forgets_partial",
    "Ecal.E2E.Disc.C106_subscriber_unregistration_sent",
    "Ecal.E2E.Disc.C106_publisher_unregistration_sent",
    "Ecal.E2E.Disc.C106_violated_late_datagram",
    "Ecal.E2E.Disc.C106_publisher_learns",
    "Ecal.E2E.Disc.C106_subscriber_learns",
    "Ecal.E2E.Disc.C106_publisher_knows_subscribers",
    "Ecal.E2E.Disc.C106_subscriber_knows_connected_publishers_partial",
    "Ecal.E2E.Disc.C106_layer_numbers"
   ],
   "note": "Knowing only what was there, learning, the whole exchange and forgetting are proved for all histories; a registration datagram that arrives after the unregistration brings a destroyed peer back until the timeout (C106_violated_late_datagram); the known subscriber of a publisher need not be this one (C57)."
  },
  {
   "property": "C107",
   "status": "partial",
   "theorems": [
    "Ecal.E2E.Call.C107_no_failure",
    "Ecal.E2E.Call.C107_fault_free_all_answered",
    "Ecal.E2E.Call.C107_answer_is_true",
    "Ecal.E2E.Call.C107_execution_has_call",
    "Ecal.E2E.Call.C107_at_most_once",
    "Ecal.E2E.Call.C107_error_is_failed",
    "Ecal.E2E.Call.C107_all_answered",
    "Ecal.E2E.Call.C107_failure_may_be_late",
    "Ecal.E2E.Call.C107_violated_described_only"
   ],
   "note": "Every answered call carries the outcome of its own request, executions are at most once and in call order, and a standing connection at rest has answered all calls, for all byte segmentations, interleavings and failures. Missing: a request for a method that is only described terminates the server (C107_violated_described_only), so that such calls are not answered; requests and responses are below 4 GiB."
  },
  {
   "property": "C108",
   "status": "partial",
   "theorems": [
    "Ecal.E2E.ShmReg.C108_list_reaches_reader",
    "Ecal.E2E.ShmReg.C108_failed_open_silences_all",
    "Ecal.E2E.ShmReg.C108_failed_access_new_file",
    "Ecal.E2E.ShmReg.C108_violated_unregistration_lost",
    "Ecal.E2E.ShmReg.C108_violated_registrations_overwritten",
    "Ecal.E2E.ShmReg.C108_violated_leaving_process",
    "Ecal.E2E.ShmReg.C108_violated_failed_open",
    "Ecal.E2E.ShmReg.C108_refines_network",
    "Ecal.E2E.ShmReg.C108_publisher_knows_subscribers",
    "Ecal.E2E.ShmReg.C108_subscriber_knows_connected_publishers_partial",
    "Ecal.E2E.ShmReg.C108_publisher_learns",
    "Ecal.E2E.ShmReg.C108_subscriber_learns"
   ],
   "note": "Refinement to the network of C106 for all interleavings; delivery of a list under conditions stated on the history (no further write before the poll, no file removed during the poll). Violated in four ways: an unregistration is overwritten by the next cycle, the collected registrations are overwritten by the added ones of the same cycle, a process that leaves drops the lists of the others, a payload file that could not be opened once silences every later poll."
  },
  {
   "property": "C109",
   "status": "partial",
   "theorems": [
    "Ecal.E2E.Svc.C109_calls_only_servers",
    "Ecal.E2E.Svc.C109_server_announced",
    "Ecal.E2E.Svc.C109_announced_server_called_partial",
    "Ecal.E2E.Svc.C109_find",
    "Ecal.E2E.Svc.C109_silent_server_forgotten_partial",
    "Ecal.E2E.Svc.C109_violated_host_group",
    "Ecal.E2E.Svc.C109_violated_missing_port",
    "Ecal.E2E.Svc.C109_violated_destroyed_server_called"
   ],
   "note": "Soundness, announcing, finding and forgetting are proved for all histories. Missing: 5000 ms instead of the configured timeout (C95_violated_slow_registration); violated by host groups (registrations of servers carry none), by a server that lacks the port of one of two enabled protocols, and by destroyed servers, whose unregistration is ignored."
  },
  {
   "property": "C110",
   "status": "partial",
   "theorems": [
    "Ecal.Life.Obj.C110_no_dangling_pointer_partial",
    "Ecal.Life.Obj.C110_calls_defined",
    "Ecal.Life.Obj.C110_violated_create_uninitialised",
    "Ecal.Life.Obj.C110_gates_of_components",
    "Ecal.Life.Obj.C110_not_created",
    "Ecal.Life.Obj.C110_counterpart_known",
    "Ecal.Life.Obj.C110_counterpart_forgotten",
    "Ecal.Life.Obj.C110_announced_iff",
    "Ecal.Life.Obj.C110_created_announced_partial",
    "Ecal.Life.Obj.C110_destroyed_is_gone",
    "Ecal.Life.Obj.C110_finalize_stops",
    "Ecal.Life.Obj.C110_finalize_stops_registered",
    "Ecal.Life.Obj.C110_stopped_publisher_stays_dead",
    "Ecal.Life.Obj.C110_stopped_subscriber_keeps_publishers",
    "Ecal.Life.Obj.C110_violated_zombie",
    "Ecal.Life.Obj.C110_violated_stale_publisher",
    "Ecal.Life.Obj.C110_violated_server_before_init",
    "Ecal.Life.Obj.C110_violated_dead_server_created",
    "Ecal.Life.Obj.C110_destroy_create_revives",
    "Ecal.Life.Obj.C110_move_transfers"
   ],
   "note": "Memory safety and announcement are proved for all sequences of calls (C110_no_dangling_pointer_partial, C110_calls_defined, C110_announced_iff, C110_created_announced_partial, C110_destroyed_is_gone, C110_finalize_stops, C110_destroy_create_revives). Violated: a publisher kept over Finalize/Initialize is never announced again although Send reports success and Create refuses to set it up (C110_violated_zombie, for ever: C110_stopped_publisher_stays_dead); such a subscriber reports publishers for ever (C110_violated_stale_publisher, C110_stopped_subscriber_keeps_publishers); a server created before Initialize is never announced (C110_violated_server_before_init); Create of a server reports success although it was not started (C110_violated_dead_server_created); creating a publisher or subscriber without the component is undefined behaviour (C110_violated_create_uninitialised)."
  },
  {
   "property": "C111",
   "status": "partial",
   "theorems": [
    "Ecal.E2E.Flow.C111_known_subscriber_is_served",
    "Ecal.E2E.Flow.C111_message_delivered_once",
    "Ecal.E2E.Flow.C111_violated_connected_without_layer",
    "Ecal.E2E.Flow.C111_only_what_was_sent",
    "Ecal.E2E.Flow.C111_delivered_is_subsequence"
   ],
   "note": "Origin, order, layer choice and delivery are proved for all histories of any number of processes; the parts on publishers with no common layer are violated (C111_violated_connected_without_layer). Shared memory copies arrive as they are (the way in between is C105)."
  },
  {
   "property": "C112",
   "status": "partial",
   "theorems": [
    "Ecal.Service.Client.C112_next_host_is_tried",
    "Ecal.Service.Client.C112_first_reachable_host_decides",
    "Ecal.Service.Client.C112_all_unreachable",
    "Ecal.Service.Client.C112_violated_no_fallback_after_handshake",
    "Ecal.Service.Client.C112_no_error_without_cause",
    "Ecal.Service.ClientV0.C112_v0_next_host_is_tried",
    "Ecal.Service.ClientV0.C112_v0_first_accepting_host_is_taken",
    "Ecal.Service.ClientV0.C112_v0_all_unreachable",
    "Ecal.Service.ClientV0.C112_v0_no_error_without_cause"
   ],
   "note": "proved for both protocol versions: hosts are tried in order, the first reachable one decides, failure only after the whole list, no error without a failing operation; violated (theorem): after a failed handshake the remaining hosts are not tried; asio's resolver and connect are operations with any outcome"
  },
  {
   "property": "C113",
   "status": "partial",
   "theorems": [
    "Ecal.E2E.Disc.MonNet.C113_only_existing",
    "Ecal.E2E.Disc.MonNet.C113_listed_once",
    "Ecal.E2E.Disc.MonNet.C113_announced_is_listed_partial",
    "Ecal.E2E.Disc.MonNet.C113_gone_not_listed",
    "Ecal.E2E.Disc.MonNet.C113_violated_hidden",
    "Ecal.E2E.Disc.MonNet.C113_violated_ghost"
   ],
   "note": "Violated as stated: the key of a table is the concatenation of topic name and topic id, so that a living publisher is hidden by another one with the same concatenation (C113_violated_hidden), and a late announcement lists a destroyed publisher again (C113_violated_ghost). Proved without exceptions: only existing ones are listed, each once, and what is withdrawn or timed out is not; listing of what is announced under the condition of different keys."
  },
  {
   "property": "C114",
   "status": "partial",
   "theorems": [
    "Ecal.Registration.UserCb.C114_told_once_in_order",
    "Ecal.Registration.UserCb.C114_content",
    "Ecal.Registration.UserCb.C114_content_from_network",
    "Ecal.Registration.UserCb.C114_results",
    "Ecal.Registration.UserCb.C114_kinds_independent",
    "Ecal.Registration.UserCb.C114_after_removal_partial",
    "Ecal.Registration.UserCb.C114_violated_called_after_removal",
    "Ecal.Sync.RegCbRaces.C114_race_free_partial",
    "Ecal.Sync.RegCbRaces.C114_race_iff",
    "Ecal.Sync.RegCbRaces.C114_violated_race",
    "Ecal.Sync.RegCbRaces.C114_no_deadlock_partial",
    "Ecal.Sync.RegCbRaces.C114_violated_finalize"
   ],
   "note": "Violated as stated: a callback can be called after its removal returned (C114_violated_called_after_removal), setting or removing it while a registration of its kind arrives is a data race, as is switching the loopback mode (C114_violated_race), and Finalize in a callback blocks for ever (C114_violated_finalize). Proved: exactly one call per registration in order with the content that arrived, at most the one call already taken after a removal, the exact table of racing operations, freedom from deadlocks of all other calls."
  },
  {
   "property": "C115",
   "status": "partial",
   "theorems": [
    "Ecal.Shm.Posix.C115_no_crash_partial",
    "Ecal.Shm.Posix.C115_exchange_partial",
    "Ecal.Shm.Posix.C115_given_back_partial",
    "Ecal.Shm.Posix.C115_violated_smaller_queue",
    "Ecal.Shm.Posix.C115_violated_cut_off",
    "Ecal.Shm.Posix.C115_violated_opened_too_early",
    "Ecal.Shm.Posix.C115_violated_mmap_fails",
    "Ecal.Shm.Posix.C115_violated_ftruncate_fails",
    "Ecal.Shm.Posix.C115_violated_descriptor_zero",
    "Ecal.Shm.Posix.C115_violated_late_reset",
    "Ecal.Shm.Posix.C115_violated_stuck_reader",
    "Ecal.Shm.Posix.C115_violated_mutex_fails"
   ],
   "note": "No signal, full exchange and exact ledgers of descriptors and mappings are proved for all interleavings under stated circumstances (same length by all creators, opened after creation, no failing ftruncate, no failing mmap when opening); nine theorems show that without them the code is killed or loses what it holds."
  },
  {
   "property": "C116",
   "status": "partial",
   "theorems": [
    "Ecal.E2E.TypedCall.C116_typed_answer",
    "Ecal.E2E.TypedCall.C116_typed_call_partial",
    "Ecal.E2E.TypedCall.C116_request_served",
    "Ecal.E2E.TypedCall.C116_violated_lost_response",
    "Ecal.E2E.TypedCall.C116_violated_answers_after_destroy",
    "Ecal.Msg.TypedSvc.C116_quiet_is_safe_partial",
    "Ecal.Msg.TypedSvc.C116_server_answer",
    "Ecal.Msg.TypedSvc.C116_deprecated_call_partial",
    "Ecal.Msg.TypedSvc.C116_deprecated_false",
    "Ecal.Msg.TypedSvc.C116_deprecated_untouched",
    "Ecal.Msg.TypedSvc.C116_violated_early_request",
    "Ecal.Msg.TypedSvc.C116_violated_create_race",
    "Ecal.Msg.TypedSvc.C116_violated_destroy_race",
    "Ecal.Msg.TypedSvc.C116_violated_destroyed_object",
    "Ecal.Msg.TypedSvc.C116_violated_late_callback",
    "Ecal.Msg.TypedSvc.C116_violated_destroy_keeps_server",
    "Ecal.Msg.TypedSvc.C116_violated_second_create",
    "Ecal.Msg.TypedSvc.C116_violated_deprecated_wrong_server",
    "Ecal.Msg.TypedSvc.C116_violated_deprecated_unparsed",
    "Ecal.Msg.TypedSvc.C116_violated_sticky_host"
   ],
   "note": "Connection: C116_typed_answer and C116_request_served hold for all runs; C116_typed_call_partial needs messages that survive serialisation. Objects: C116_server_answer for all histories, C116_quiet_is_safe_partial if no application call overlaps with a request. Violated: requests during Create (empty function, data race), Destroy and deletion during requests (race, use after free), Destroy leaves the server answering, second Create returns true, unserialisable responses reported as executed, deprecated calls."
  },
  {
   "property": "C117",
   "status": "partial",
   "theorems": [
    "Ecal.Sync.NamedEvent.C117_one_event_per_name_partial",
    "Ecal.Sync.NamedEvent.C117_same_object_partial",
    "Ecal.Sync.NamedEvent.C117_signal_seen_partial",
    "Ecal.Sync.NamedEvent.C117_null_event_deaf",
    "Ecal.Sync.NamedEvent.C117_violated_simultaneous_open",
    "Ecal.Sync.NamedEvent.C117_violated_opened_too_early",
    "Ecal.Sync.NamedEvent.C117_violated_opened_before_init",
    "Ecal.Sync.NamedEvent.C117_violated_owner_closes_first",
    "Ecal.Sync.NamedEvent.C117_violated_two_owners",
    "Ecal.Sync.NamedEvent.C117_violated_mmap_fails",
    "Ecal.Sync.NamedEvent.C117_violated_no_room",
    "Ecal.Sync.NamedEvent.C117_violated_left_behind",
    "Ecal.Sync.NamedEvent.C117_violated_stale_signal"
   ],
   "note": "proved as refinement of one flag per name for calm histories (no failing system call, no opening of a name while another object of it is constructed or destroyed, owners close last); the violations show that each restriction is needed"
  },
  {
   "property": "C118",
   "status": "partial",
   "theorems": [
    "Ecal.Sync.ShutdownAll.C118_asked_iff_told_partial",
    "Ecal.Sync.ShutdownAll.C118_meant_iff_told_partial",
    "Ecal.Sync.ShutdownAll.C118_own_host_only",
    "Ecal.Sync.ShutdownAll.C118_kinds_partition",
    "Ecal.Sync.ShutdownAll.C118_violated_reused_pid",
    "Ecal.Sync.ShutdownAll.C118_violated_not_listed",
    "Ecal.Sync.ShutdownAll.C118_violated_same_host_name",
    "Ecal.Sync.ShutdownAll.C118_violated_unit_name",
    "Ecal.Sync.ShutdownAll.C118_violated_by_unit_name"
   ],
   "note": "proved as equivalence for exact monitoring lists and processes that have called Ok once and were not asked before; stale lists, unlisted processes and equal host names violate the full statement; the kinds partition the listed processes (proved without restriction)"
  },
  {
   "property": "C119",
   "status": "proved",
   "theorems": [
    "Ecal.Pb.C119_payload",
    "Ecal.Pb.C119_registration",
    "Ecal.Pb.C119_registration_list",
    "Ecal.Pb.C119_request",
    "Ecal.Pb.C119_response",
    "Ecal.Pb.C119_log",
    "Ecal.Pb.C119_log_list",
    "Ecal.Pb.C119_monitoring",
    "Ecal.Pb.C119_safe",
    "Ecal.Pb.C119_neighbours"
   ],
   "note": "The C decoder (nanopb 0.4 streams, tables of all eight messages) equals the list semantics used by the serialisation claims on exactly the bytes of the message, for arbitrary bytes; reading outside of the message and endless decoding are outcomes of the model and excluded. Trusted: the generated tables (*.pb.c) agree with the field lists in *.pb.h; the address space (SIZE_MAX) exceeds the message length."
  },
  {
   "property": "C120",
   "status": "proved",
   "theorems": [
    "Ecal.Pb.C120_payload",
    "Ecal.Pb.C120_registration",
    "Ecal.Pb.C120_registration_list",
    "Ecal.Pb.C120_request",
    "Ecal.Pb.C120_response",
    "Ecal.Pb.C120_log",
    "Ecal.Pb.C120_log_list",
    "Ecal.Pb.C120_monitoring",
    "Ecal.Pb.C120_window",
    "Ecal.Pb.C120_payload_roundtrip",
    "Ecal.Pb.C120_registration_roundtrip",
    "Ecal.Pb.C120_service_roundtrip",
    "Ecal.Pb.C120_log_roundtrip"
   ],
   "note": "The tables list the fields in the order of the generated *.pb.h files. An earlier failure of the counting pass (impossible by the theorem) is not modelled with its partial count. The round trip for registrations of processes, services and clients is limited by what the format carries (C28)."
  },
  {
   "property": "C121",
   "status": "partial",
   "theorems": [
    "Ecal.Sync.ProcessRaces.C121_locked",
    "Ecal.Sync.ProcessRaces.C121_race_free_partial",
    "Ecal.Sync.ProcessRaces.C121_quiet",
    "Ecal.Sync.ProcessRaces.C121_race_iff",
    "Ecal.Sync.ProcessRaces.C121_violated_set_state",
    "Ecal.Sync.ProcessRaces.C121_violated_unit_name",
    "Ecal.Sync.ProcessRaces.C121_violated_filter",
    "Ecal.Sync.ProcessRaces.C121_violated_log_level",
    "Ecal.Sync.ProcessRaces.C121_violated_first_call",
    "Ecal.Sync.ProcessRaces.C121_violated_initialize"
   ],
   "note": "Violated by SetState, SetUnitName, SetExclFilter/SetInclFilter, Log without a level, the first lookup of the process parameters and a further Initialize: each touches shared data without a lock (witnesses proved). Proved: exactly which pairs of operations can race, and that all other combinations of any number of threads never do; the monitoring tables and the received log messages are always protected."
  },
  {
   "property": "C122",
   "status": "partial",
   "theorems": [
    "Ecal.E2E.SvcCall.C122_answer_names_server",
    "Ecal.E2E.SvcCall.C122_execution_has_call",
    "Ecal.E2E.SvcCall.C122_own_service_partial",
    "Ecal.E2E.SvcCall.C122_at_most_once_per_server_partial",
    "Ecal.E2E.SvcCall.C122_called_answered",
    "Ecal.E2E.SvcCall.C122_discovery_to_result_partial",
    "Ecal.E2E.SvcCall.C122_calls_counted",
    "Ecal.E2E.SvcCall.C122_violated_port_used_again"
   ],
   "note": "Composition of discovery (C109) and connections (C107). Every answer belongs to a call of the client, comes from a server that existed and names it; it is the result of executing that request, or reports a missing method (C122_answer_names_server, C122_execution_has_call). If no server of another service ever had the same address, it is a server of the client's service; if no two servers had the same address, it is the server the session was opened for, each call is executed at most once by each server, and a call after the registration arrived is answered by it if nothing fails. Violated: the handshake does not tell the service, so that a server of another service that got the port of a server that is gone executes the call."
  },
  {
   "property": "C123",
   "status": "partial",
   "theorems": [
    "Ecal.Proc.Term.C123_result_value",
    "Ecal.Proc.Term.C123_started_partial",
    "Ecal.Proc.Term.C123_not_started_partial",
    "Ecal.Proc.Term.C123_no_files_partial",
    "Ecal.Proc.Term.C123_no_terminal",
    "Ecal.Proc.Term.C123_returns",
    "Ecal.Proc.Term.C123_same_arguments",
    "Ecal.Proc.Term.C123_terminal_used",
    "Ecal.Proc.Term.C123_violated_block",
    "Ecal.Proc.Term.C123_violated_window_closed",
    "Ecal.Proc.Term.C123_violated_lock_file",
    "Ecal.Proc.Term.C123_violated_slow",
    "Ecal.Proc.Term.C123_violated_hang"
   ],
   "note": "Result value, returning within 32 steps, failing terminal, arguments and use of a terminal hold in every run. A process id means a started program if the lock file can be created, nothing interrupts the caller and the window is not closed while the helper is at work; result 0 means that it is never started, and no files stay, if the FIFO can be created, nothing interrupts the caller and the terminal needs less than 5 s. Violated: block never waits, closing the window, missing lock file, slow terminal, a helper that hangs."
  },
  {
   "property": "C124",
   "status": "partial",
   "theorems": [
    "Ecal.Capi.Handle.C124_types",
    "Ecal.Capi.Handle.C124_null_handle",
    "Ecal.Capi.Handle.C124_passed_on",
    "Ecal.Capi.Handle.C124_bad_iff",
    "Ecal.Capi.Handle.C124_yes_no",
    "Ecal.Capi.Handle.C124_send_partial",
    "Ecal.Capi.Handle.C124_violated_empty_send",
    "Ecal.Capi.Handle.C124_violated_ids",
    "Ecal.Capi.Handle.C124_text_partial",
    "Ecal.Capi.Handle.C124_handles",
    "Ecal.Capi.Handle.C124_safe",
    "Ecal.Capi.Handle.C124_deleted_once",
    "Ecal.Capi.Handle.C124_told_partial",
    "Ecal.Capi.Handle.C124_violated_description",
    "Ecal.Capi.Handle.C124_callback",
    "Ecal.Capi.Handle.C124_violated_null_callback",
    "Ecal.Capi.Handle.C124_request",
    "Ecal.Capi.Handle.C124_response",
    "Ecal.Capi.Handle.C124_status_partial",
    "Ecal.Capi.Handle.C124_violated_status"
   ],
   "note": "Null handles, arguments (exactly when memory that is not there is used), yes/no results, life of the objects and safety of rule keeping programs are proved for all sequences of calls. Violated: an empty message's result does not tell whether it was sent; eCAL_Sub_SetID always reports success; event callbacks get binary descriptions without a length; a null callback is accepted and called; eCAL_Time_GetStatus with a maximal length overwrites the caller's pointer."
  },
  {
   "property": "C125",
   "status": "partial",
   "theorems": [
    "Ecal.E2E.Ident.C125_id_iff",
    "Ecal.E2E.Ident.C125_one_host_partial",
    "Ecal.E2E.Ident.C125_all_delivered_partial",
    "Ecal.E2E.Ident.C125_apart_odd",
    "Ecal.E2E.Ident.C125_apart_high",
    "Ecal.E2E.Ident.C125_shared",
    "Ecal.E2E.Ident.C125_violated_hosts",
    "Ecal.E2E.Ident.C125_violated_same_tick",
    "Ecal.E2E.Ident.C125_hash_iff",
    "Ecal.E2E.Ident.C125_violated_hash",
    "Ecal.E2E.Ident.C125_peer_iff",
    "Ecal.E2E.Ident.C125_violated_peers",
    "Ecal.E2E.Ident.C125_monitor_iff",
    "Ecal.E2E.Ident.C125_violated_monitor"
   ],
   "note": "Proved: identities are equal exactly for equal clock readings; different on one host with an advancing clock; with different readings and hashes apart every message of every publisher is delivered in order, for all histories; sufficient conditions for hashes being apart; exact condition for equal sample hashes; with a shared identity at most as many messages are delivered as the busiest publisher sent; keys of connections and monitoring. Violated: equal readings on two hosts or in one process lose messages, merge connections and monitoring entries; hash collision loses a message of a publisher with an identity of its own."
  },
  {
   "property": "C126",
   "status": "partial",
   "theorems": [
    "Ecal.E2E.Logging.C126_sent",
    "Ecal.E2E.Logging.C126_lossless",
    "Ecal.E2E.Logging.C126_only_logged",
    "Ecal.E2E.Logging.C126_c_partial",
    "Ecal.E2E.Logging.C126_violated_small_buffer",
    "Ecal.E2E.Logging.C126_violated_deaf",
    "Ecal.E2E.Logging.C126_violated_unbounded",
    "Ecal.E2E.Logging.C126_text",
    "Ecal.E2E.Logging.C126_violated_stale",
    "Ecal.E2E.Logging.C126_file_partial",
    "Ecal.E2E.Logging.C126_file_filter",
    "Ecal.E2E.Logging.C126_violated_forged",
    "Ecal.E2E.Logging.C126_violated_zero",
    "Ecal.E2E.Logging.C126_words"
   ],
   "note": "Sent: exactly the non-empty messages that pass the filter. Every interleaving of arrivals and fetches hands out exactly what arrived, unchanged, once, in order; only what was logged under any loss, repetition and order. C interface with large enough buffers; file injective for plain texts. Violated: the C function loses all messages when the buffer is too small; a damaged datagram makes deaf; unbounded collecting; stale text without initialised library; forged lines by line feeds; texts cut at zero bytes in the file."
  },
  {
   "property": "C127",
   "status": "partial",
   "theorems": [
    "Ecal.Capi.Util.C127_topic",
    "Ecal.Capi.Util.C127_copied_partial",
    "Ecal.Capi.Util.C127_unknown",
    "Ecal.Capi.Util.C127_nothing",
    "Ecal.Capi.Util.C127_consistent_partial",
    "Ecal.Capi.Util.C127_method_partial",
    "Ecal.Capi.Util.C127_violated_small",
    "Ecal.Capi.Util.C127_violated_untyped",
    "Ecal.Capi.Util.C127_violated_mixture"
   ],
   "note": "Topics: found exactly if announced and not expired, the best announced type; copied exactly into buffers that are large enough; nothing touched otherwise; three calls without changes between them tell one type. Methods: a text of an announced method. Violated: small buffer and missing type look like an unknown topic; a registration between two calls mixes the texts of two types."
  },
  {
   "property": "C128",
   "status": "partial",
   "theorems": [
    "Ecal.Shm.Names.C128_distinct_partial",
    "Ecal.Shm.Names.C128_default",
    "Ecal.Shm.Names.C128_meet",
    "Ecal.Shm.Names.C128_violated_domain",
    "Ecal.Shm.Names.C128_violated_ecal",
    "Ecal.Shm.Names.C128_violated_nested",
    "Ecal.Shm.Names.C128_violated_mutex",
    "Ecal.Shm.Names.C128_private_partial",
    "Ecal.Shm.Names.C128_violated_same_number",
    "Ecal.Shm.Names.C128_violated_taken_away",
    "Ecal.Shm.Names.C128_violated_left_over"
   ],
   "note": "Proved: with the default domain (and any harmless set of domains) all names of files, mutexes and events differ, for all numbers and process ids; both sides compute the same names; if no number is drawn twice, publishers and subscribers behave as if each publisher had a private file, over all histories. Violated, with witnesses: publishers that draw the same number share one file (messages of the wrong topic, file taken away, left over file of a crashed publisher); domain names that clash with files, payloads or mutexes."
  },
  {
   "property": "C129",
   "status": "partial",
   "theorems": [
    "Ecal.Proc.Fork.C129_own_partial",
    "Ecal.Proc.Fork.C129_distinct_partial",
    "Ecal.Proc.Fork.C129_heard_partial",
    "Ecal.Proc.Fork.C129_stays",
    "Ecal.Proc.Fork.C129_spawned",
    "Ecal.Proc.Fork.C129_exec",
    "Ecal.Proc.Fork.C129_violated_inherits",
    "Ecal.Proc.Fork.C129_host_partial",
    "Ecal.Proc.Fork.C129_stop_partial",
    "Ecal.Proc.Fork.C129_meant_partial",
    "Ecal.Proc.Fork.C129_violated_fork",
    "Ecal.Proc.Fork.C129_violated_not_told",
    "Ecal.Proc.Fork.C129_violated_wrong_one",
    "Ecal.Proc.Fork.C129_violated_reuse",
    "Ecal.Proc.Fork.C129_violated_rename"
   ],
   "note": "Proved: if processes fork before they ask the library for their id, every process reports its own number in all histories, ids of living processes differ, registrations of one are accepted by all others of the host group, a request to stop reaches the process meant and no other; processes started as programs or after exec report their own number in all histories, without that hypothesis; the host name is right as long as the host is not renamed. Violated, with witnesses: a process forked after its parent has read its id reports the id of the parent for good (registrations dropped as own, requests lost or taken by the wrong process, clash with a program that gets the number later); host renamed."
  },
  {
   "property": "C130",
   "status": "partial",
   "theorems": [
    "Ecal.Proc.Self.C130_shown",
    "Ecal.Proc.Self.C130_given",
    "Ecal.Proc.Self.C130_default_partial",
    "Ecal.Proc.Self.C130_process_name",
    "Ecal.Proc.Self.C130_stable",
    "Ecal.Proc.Self.C130_readable",
    "Ecal.Proc.Self.C130_arguments",
    "Ecal.Proc.Self.C130_told_apart",
    "Ecal.Proc.Self.C130_started_again_partial",
    "Ecal.Proc.Self.C130_state_partial",
    "Ecal.Proc.Self.C130_violated_old_text",
    "Ecal.Proc.Self.C130_rest",
    "Ecal.Proc.Self.C130_components_partial",
    "Ecal.Proc.Self.C130_violated_components",
    "Ecal.Proc.Self.C130_violated_nameless",
    "Ecal.Proc.Self.C130_violated_left_over",
    "Ecal.Proc.Self.C130_violated_deleted",
    "Ecal.Proc.Self.C130_violated_task"
   ],
   "note": "Given names, names of programs, command lines for all arguments, states and components are shown as they are, over all histories. Violated: a process initialised without a name has the empty name, not that of its program; the former name is kept over Finalize; a deleted program file changes the name; a state without text is shown with an older text; services and monitoring are not told; task parameters are always empty."
  },
  {
   "property": "C131",
   "status": "partial",
   "theorems": [
    "Ecal.MonTopic.C131_shown",
    "Ecal.MonTopic.C131_sub_shown",
    "Ecal.MonTopic.C131_identity",
    "Ecal.MonTopic.C131_attributes",
    "Ecal.MonTopic.C131_type",
    "Ecal.MonTopic.C131_counter",
    "Ecal.MonTopic.C131_connections",
    "Ecal.MonTopic.C131_last_sample_partial",
    "Ecal.MonTopic.C131_unheard_partial",
    "Ecal.MonTopic.C131_layers_partial",
    "Ecal.MonTopic.C131_sent_is_active",
    "Ecal.MonTopic.C131_violated_failed_layer",
    "Ecal.MonTopic.C131_violated_layer_out_of_use",
    "Ecal.MonTopic.C131_violated_set_id",
    "Ecal.MonTopic.C131_violated_unheard_size",
    "Ecal.MonTopic.C131_violated_large",
    "Ecal.MonTopic.C131_sub_identity",
    "Ecal.MonTopic.C131_sub_attributes",
    "Ecal.MonTopic.C131_sub_counter",
    "Ecal.MonTopic.C131_sub_size_partial",
    "Ecal.MonTopic.C131_sub_drops_partial",
    "Ecal.MonTopic.C131_sub_layers_partial",
    "Ecal.MonTopic.C131_violated_sub_connections",
    "Ecal.MonTopic.C131_violated_sub_layer",
    "Ecal.MonTopic.C131_violated_sub_drops"
   ],
   "note": "All fields are proved for all histories of publishers and subscribers; the full statement is violated: a layer is shown as active although every attempt to send by it failed or nobody uses it any more, an id is shown only after a sample sent to somebody, samples sent to nobody do not change the size, sizes from 2 GiB on are negative, a subscriber has no connections, its layers count discarded samples and its losses are off by the number of gaps (C08)"
  },
  {
   "property": "C132",
   "status": "partial",
   "theorems": [
    "Ecal.MonSvc.C132_shown",
    "Ecal.MonSvc.C132_server_identity_partial",
    "Ecal.MonSvc.C132_server_methods",
    "Ecal.MonSvc.C132_server_types",
    "Ecal.MonSvc.C132_server_calls_partial",
    "Ecal.MonSvc.C132_refused_changes_nothing",
    "Ecal.MonSvc.C132_client_identity",
    "Ecal.MonSvc.C132_client_methods_partial",
    "Ecal.MonSvc.C132_violated_version",
    "Ecal.MonSvc.C132_violated_no_port",
    "Ecal.MonSvc.C132_violated_calls",
    "Ecal.MonSvc.C132_violated_not_callable",
    "Ecal.MonSvc.C132_violated_client_calls"
   ],
   "note": "Methods, types and descriptions of servers are proved for all histories. Violated by the code and refuted with witnesses: the version shown is always 0; a server without port is shown without name; removing a method loses its count; methods without callback are shown; a client's call counts once per server. The counts and identities are proved where these do not apply."
  },
  {
   "property": "C133",
   "status": "partial",
   "theorems": [
    "Ecal.Msg.DynPub.C133_announced",
    "Ecal.Msg.DynPub.C133_ends",
    "Ecal.Msg.DynPub.C133_sends",
    "Ecal.Msg.DynPub.C133_id",
    "Ecal.Msg.DynPub.C133_type_partial",
    "Ecal.Msg.DynPub.C133_move",
    "Ecal.Msg.DynPub.C133_move_assign",
    "Ecal.Msg.DynPub.C133_by_name",
    "Ecal.Msg.DynPub.C133_counts",
    "Ecal.Msg.DynPub.C133_undefined_only_by",
    "Ecal.Msg.DynPub.C133_violated_moved_from",
    "Ecal.Msg.DynPub.C133_violated_null",
    "Ecal.Msg.DynPub.C133_violated_self_move",
    "Ecal.Msg.DynPub.C133_violated_created_again",
    "Ecal.Msg.DynPub.C133_violated_set_type"
   ],
   "note": "Ownership, announced topics, values sent, ids, moves and unknown names are proved for all histories. Violated by the code and refuted with witnesses: sending with an object that was moved from or made with a null pointer is undefined; moving to itself destroys the publisher; the type announced can differ from the message after SetDataTypeInformation or Create."
  },
  {
   "property": "C134",
   "status": "partial",
   "theorems": [
    "Ecal.Desc.Overview.C134_topics_agree",
    "Ecal.Desc.Overview.C134_topics_missing",
    "Ecal.Desc.Overview.C134_topic_names",
    "Ecal.Desc.Overview.C134_plain",
    "Ecal.Desc.Overview.C134_no_gate",
    "Ecal.Desc.Overview.C134_methods_missing",
    "Ecal.Desc.Overview.C134_method_names",
    "Ecal.Desc.Overview.C134_methods_agree_partial",
    "Ecal.Desc.Overview.C134_violated_methods",
    "Ecal.Desc.Overview.C134_topics_smallest_id"
   ],
   "note": "Proved for topics (names, overview and query agree after any history; smallest id on ties) and for the names of methods; for the types of methods proved when one server is at least as good as all others in both qualities. Violated otherwise: two servers, one with a described request and one with a described response, make overview and query differ (C134_violated_methods)."
  },
  {
   "property": "C135",
   "status": "partial",
   "theorems": [
    "Ecal.Udp.Reach.C135_isolated",
    "Ecal.Udp.Reach.C135_isolated_registration",
    "Ecal.Udp.Reach.C135_remote",
    "Ecal.Udp.Reach.C135_own_host_partial",
    "Ecal.Udp.Reach.C135_registration",
    "Ecal.Udp.Reach.C135_ports",
    "Ecal.Udp.Reach.C135_one_way",
    "Ecal.Udp.Reach.C135_exact",
    "Ecal.Udp.Reach.C135_exact_registration",
    "Ecal.Udp.Reach.C135_disabled_host",
    "Ecal.Udp.Reach.C135_log_partial",
    "Ecal.Udp.Reach.C135_violated_log_directory",
    "Ecal.Udp.Reach.C135_violated_loopback",
    "Ecal.Udp.Reach.C135_violated_local_only",
    "Ecal.Udp.Reach.C135_violated_ports",
    "Ecal.Udp.Reach.C135_separate"
   ],
   "note": "Isolation, time to live, registrations, log messages, exact conditions of delivery, port separation from a distance of 3 on are proved; violated: loopback is ignored with the network disabled, a network-disabled process receives remote samples through the groups of other processes of its host (Linux default), port settings at distance 2 overlap, without the log directory a process that also logs to a file takes no part in UDP logging. Delivery by the operating system is trusted."
  }
 ]
}
