{"property": "C01", "status": "proved", "theorems": ["C01_mem_store_is_map"], "note": "In-memory store, every operation history."}
{"property": "C02", "status": "proved", "theorems": ["C02_stored_has_metadata", "C02_metadata_never_forgotten"], "note": "In-memory store, every operation history."}
{"property": "C03", "status": "proved", "theorems": ["C03_remove_leaves_tombstone"], "note": "In-memory store."}
{"property": "C04", "status": "partial", "theorems": ["C04_sled_no_resubmission", "C04_mem_resubmission_violated"], "note": "Holds for the sled store; the in-memory store violates it, the negation is proved with a concrete history."}
{"property": "C05", "status": "partial", "theorems": ["C05_sled_is_map_with_tombstones_partial", "C05_sled_lookup_violated"], "note": "Contents refine the map specification; lookups of absent identifiers panic instead of reporting absence (proved)."}
{"property": "C06", "status": "partial", "theorems": ["C06_sled_crash_consistent_partial", "C06_sled_interrupted_push_violated"], "note": "Crash between the writes of one operation; an interrupted push loses the bundle for good (proved)."}
{"property": "C07", "status": "proved", "theorems": ["C07_constraint_bits_round_trip", "C07_constraint_bits_injective"], "note": "All constraint sets."}
{"property": "C08", "status": "proved", "theorems": ["C08_sync_deletes_or_persists"], "note": "In-memory store."}
{"property": "C09", "status": "proved", "theorems": ["C09_processed_once", "C09_duplicates_stop", "C09_new_bundles_pass"], "note": "for every execution of the whole node, not only of receive calls"}
{"property": "C10", "status": "proved", "theorems": ["C10_reception_statistics"], "note": "when no task is running; the in-memory store accepts every push"}
{"property": "C11", "status": "partial", "theorems": ["C11_expiry_sweep_exact_partial", "C11_overflow_violated"], "note": "Exact unless creation time + lifetime overflows 64 bits; the overflow case is proved to be wrong."}
{"property": "C12", "status": "proved", "theorems": ["C12_janitor_forwards_pending_in_order", "C12_janitor_idle_without_cla", "C12_janitor_run", "C12_janitor_idle_run"], "note": "The first two theorems are about one janitor run as a function of the store, the last two about the janitor as a task of the node, up to the questions to the router. With sequential processing a panic while forwarding ends the run early, so a prefix is asked for."}
{"property": "C13", "status": "proved", "theorems": ["C13_foreign_source", "C13_own_source", "C13_foreign_always"], "note": "the two first theorems: from every reachable state, with no other call running at the same time; the third: whatever else runs at the same time, for foreign sources (for own sources see C113 and C127)"}
{"property": "C14", "status": "proved", "theorems": ["C14_dispatch"], "note": "from every reachable state, with no other call running at the same time; for bundles without removable unknown blocks (C19)"}
{"property": "C15", "status": "partial", "theorems": ["C15_hop_limit_partial", "C15_limit_used_up", "C15_hop_limit_violated"], "note": "false for a count of 255 (u8 wrap-around)"}
{"property": "C16", "status": "proved", "theorems": ["C16_lifetime", "C16_expired_deleted"], "note": ""}
{"property": "C17", "status": "partial", "theorems": ["C17_age_partial", "C17_too_old_violated"], "note": "the second half is false: the age in milliseconds is compared as microseconds"}
{"property": "C18", "status": "proved", "theorems": ["C18_previous_node"], "note": ""}
{"property": "C19", "status": "partial", "theorems": ["C19_unknown_blocks_partial", "C19_deleted", "C19_wrong_block_violated", "C19_aborts_violated", "C19_deleted_always"], "note": "false if a removable unknown block comes after a known one or if there are several"}
{"property": "C20", "status": "proved", "theorems": ["C20_reports_permitted", "C20_one_report_per_event"], "note": ""}
{"property": "C21", "status": "partial", "theorems": ["C21_subject_partial", "C21_nothing_else", "C21_received_violated"], "note": "false: every status report removes its subject"}
{"property": "C22", "status": "proved", "theorems": ["C22_failure_keeps", "C22_removed_only_if_asked"], "note": ""}
{"property": "C23", "status": "partial", "theorems": ["C23_transfer_statistics", "C23_router_told_partial", "C23_unnamed_violated"], "note": "the notification is missing for neighbours without a node name, whose task panics"}
{"property": "C24", "status": "partial", "theorems": ["C24_stays_deleted_partial", "C24_stays_deleted_violated"], "note": "false for tasks that were started before the removal: one of them makes the bundle pending again. Proved for every execution from a state in which no task runs: the bundle stays removed and the router is never asked about it, until a bundle with this id is received or sent"}
{"property": "C25", "status": "proved", "theorems": ["C25_agent_in_order_once"], "note": "for every history of calls during which the endpoint is not unregistered (unregistering discards the queue)"}
{"property": "C26", "status": "proved", "theorems": ["C26_registration_unique", "C26_registration_idempotent"], "note": ""}
{"property": "C27", "status": "proved", "theorems": ["C27_fetched_singleton_leaves_store", "C27_groups"], "note": "step theorem for every reachable or unreachable endpoint table over any well-formed in-memory store"}
{"property": "C28", "status": "partial", "theorems": ["C28_peer_table_partial", "C28_no_sharing_within_scheme_partial", "C28_two_nodes_share_entry_violated", "C28_find_by_remote", "C28_touch_answer"], "note": "The table is exactly the last announcement per printed node name for every history; the name drops the scheme, so a dtn and an ipn node can share one entry."}
{"property": "C29", "status": "partial", "theorems": ["C29_peer_check", "C29_timeout_partial", "C29_clock_set_back_violated"], "note": "C29_peer_check is exact for every peer table and clock value, counting time with numbers of 64 bits as the code does. Missing: if the clock is set back by even a second after the last contact, the difference wraps around and every such dynamic peer is dropped at the next check (C29_clock_set_back_violated; a debug build panics instead)."}
{"property": "C30", "status": "partial", "theorems": ["C30_fourth_failure_drops_partial", "C30_fresh_announcement_lost_violated", "C30_count_wraps_violated"], "note": "Counting and dropping proved for undisturbed failures. False if the peer is announced again between the two critical sections of a failure report: it is dropped all the same. The number of failures shown has 16 bits and starts again at 0 after 65536 failures of a static peer."}
{"property": "C31", "status": "proved", "theorems": ["C31_first_cla_usable", "C31_cla_for_node"], "note": "Every peer and every list of convergence layers."}
{"property": "C32", "status": "proved", "theorems": ["C32_epidemic_at_most_once_unless_failed", "C32_epidemic_no_duplicates"], "note": "Every history of commands to the agent."}
{"property": "C33", "status": "proved", "theorems": ["C33_epidemic_not_back_to_sender"], "note": "Every history of commands to the agent."}
{"property": "C34", "status": "partial", "theorems": ["C34_epidemic_serves_new_peers_partial", "C34_unselected_peer_counts_as_served_violated"], "note": "A peer without usable convergence layer is marked as served although nothing was sent."}
{"property": "C35", "status": "partial", "theorems": ["C35_spray_budget_partial", "C35_spray_default_budget_partial", "C35_spray_answers", "C35_second_arrival_refills_budget_violated", "C35_ipn_bundles_never_relayed_violated", "C35_any_history_partial"], "note": "The number of relays is bounded by the budget of the arrivals plus failures; a second arrival refills it."}
{"property": "C36", "status": "partial", "theorems": ["C36_failure_returns_copy_partial", "C36_failure_keeps_failed_and_drops_others_violated", "C36_wrong_peer_retried_violated", "C36_failed_direct_delivery_adds_copy_violated", "C36_copies_return_partial"], "note": "One copy comes back per failure; the filter keeps the failed node and forgets the others."}
{"property": "C37", "status": "proved", "theorems": ["C37_static_first_route"], "note": "Every history of requests, reloads and notifications."}
{"property": "C38", "status": "proved", "theorems": ["C38_flooding_all_usable", "C38_sink_nobody"], "note": "Every history of commands without shutdown."}
{"property": "C39", "status": "partial", "theorems": ["C39_answers_from_own_response", "C39_answered_once", "C39_request_ends", "C39_no_router_no_peers", "C39_response_decides_partial", "C39_response_lost_violated", "C39_overlap_violated"], "note": "Every answer with peers comes from a response naming the bundle, used once. That a response reaches its request is proved for packs with at most one constraint and no overlapping request for the same pack, and refuted otherwise."}
{"property": "C40", "status": "proved", "theorems": ["C40_mtcp_round_trip", "C40_mtcp_frame_is_cbor_byte_string", "C40_mtcp_non_bundle_data_rejected"], "note": "Every bundle length below 2^64; the frame head is a CBOR byte string head."}
{"property": "C41", "status": "proved", "theorems": ["C41_mtcp_chunking_irrelevant", "C41_mtcp_stream_delivers_sent_bundles"], "note": "Every chunking of every stream."}
{"property": "C42", "status": "proved", "theorems": ["C42_mtcp_decode_total_and_exact"], "note": "Every buffer."}
{"property": "C43", "status": "proved", "theorems": ["C43_tcpcl_round_trip", "C43_contact_header_round_trip", "C43_tcpcl_stream_round_trip", "C43_contact_header_in_stream_unreadable"], "note": "Every well-formed message and every sequence of them; a contact header is only readable by the contact header reader."}
{"property": "C44", "status": "partial", "theorems": ["C44_tcpcl_read_exact_partial", "C44_tcpcl_panic_only_in_segments_partial", "C44_extension_length_underflow_violated", "C44_huge_segment_violated"], "note": "Never over-reads, and panics only while reading a transfer segment; the extension length underflow and the unbounded allocation are proved to panic."}
{"property": "C45", "status": "proved", "theorems": ["C45_tcpcl_segments_every_request", "C45_tcpcl_reassembles"], "note": "Every history of a session; segmentation of every request and reassembly of every received transfer."}
{"property": "C46", "status": "partial", "theorems": ["C46_tcpcl_success_needs_full_ack_partial", "C46_tcpcl_end_to_end", "C46_refusal_reported_successful_violated"], "note": "Success is only reported after the peer acknowledged everything or refused the transfer; a refused transfer is reported as successful whatever the reason."}
{"property": "C47", "status": "proved", "theorems": ["C47_tcpcl_acks_and_transfers", "C47_out_of_sequence_ends_session"], "note": "Every history of received messages and local events."}
{"property": "C48", "status": "partial", "theorems": ["C48_keepalive_negotiated_partial", "C48_timeout_sends_keepalive_partial", "C48_first_timeout_terminates_violated", "C48_dead_peer_never_detected_violated", "C48_zero_does_not_disable_violated", "C48_answered_once_partial"], "note": "Negotiation is proved; the timer handling is proved to break the claim in three ways."}
{"property": "C49", "status": "partial", "theorems": ["C49_active_module_is_registered_partial", "C49_names_unique_partial", "C49_name_lengths", "C49_configured_layers_stay", "C49_gone_after_disconnect_partial", "C49_address_reuse_violated"], "note": "Proved for runs in which no connection reuses the address of one whose end has not been handled yet, and while no lock was poisoned; refuted for reused addresses."}
{"property": "C50", "status": "partial", "theorems": ["C50_packets_arrive_partial", "C50_frame_layout", "C50_large_packet_violated", "C50_full_writes_arrive_partial", "C50_partial_write_violated"], "note": "Proved for packets up to 8 MiB and sockets that take whole frames; both limits are shown to matter."}
{"property": "C51", "status": "proved", "theorems": ["C51_round_trip", "C51_standard_text", "C51_text_shape", "C51_injective"], "note": "For every byte string; the text is also shown to be the one of RFC 4648."}
{"property": "C52", "status": "partial", "theorems": ["C52_round_trip_partial", "C52_flags_tell", "C52_period_rounded_violated", "C52_layout", "C52_version", "C52_read_partial"], "note": "Missing: periods with a fraction of a second, which are rounded down (second theorem). Beacons are those that can be built through the interface with values of the Rust types."}
{"property": "C53", "status": "partial", "theorems": ["C53_accepted_decodes", "C53_allowed_accepted", "C53_others_rejected_partial", "C53_bad_coordinates_violated", "C53_decoding_partial", "C53_bad_payload_violated"], "note": "Coordinates that are no numbers panic instead of being rejected; meaningless payloads make decoding panic."}
{"property": "C54", "status": "partial", "theorems": ["C54_consecutive_partial", "C54_configured_destinations_partial", "C54_round_serves_all", "C54_default_v6_violated", "C54_two_families_violated"], "note": "Proved for one address family and destinations in printed form; refuted for the default IPv6 destination and for both families at once."}
{"property": "C55", "status": "partial", "theorems": ["C55_beacon_recorded_partial", "C55_own_beacon_ignored", "C55_garbage_ignored", "C55_never_own_peer_partial", "C55_own_name_taken_violated", "C55_receiver_survives_partial", "C55_receiver_stopped_violated"], "note": "Other endpoints of the node itself are not recognised; three kinds of datagrams stop the receiving task."}
{"property": "C56", "status": "partial", "theorems": ["C56_same_bundles_same_digest", "C56_stores_agree", "C56_different_sets_partial", "C56_ids_have_one_colon", "C56_different_sets_violated", "C56_filtered_digest_violated"], "note": "Order independence proved. Different sets give different texts if node and service names hold no colon; refuted otherwise. The digest of filtered bundles depends on the listing order."}
{"property": "C57", "status": "partial", "theorems": ["C57_control_refused_partial", "C57_remote_controls_nothing", "C57_host_not_refused", "C57_sockets_violated"], "note": "Proved for all routes except the sockets of external routers and convergence layers, which are open to every address."}
{"property": "C58", "status": "partial", "theorems": ["C58_only_missing", "C58_all_missing_partial", "C58_two_nodes", "C58_rest_not_fetched_violated", "C58_odd_digest_violated", "C58_early_end"], "note": "Nothing else is ever requested. Everything missing is requested if all downloads are answered, in particular between two nodes of this kind; a failing download or an odd digest ends the round early."}
{"property": "C59", "status": "partial", "theorems": ["C59_commands", "C59_only_subscribed", "C59_end_releases", "C59_subscriber_receives_partial", "C59_mode", "C59_subscribe_answer", "C59_takeover_violated", "C59_foreign_unsubscribe_violated", "C59_reregister_violated", "C59_service_unsubscribe_violated", "C59_answers"], "note": "Nobody receives bundles for endpoints they are not subscribed to, modes are respected and ended connections release everything, for all histories. Subscribers receive everything as long as only they name the endpoint; refuted for shared endpoints, re-registration and service names."}
{"property": "C60", "status": "partial", "theorems": ["C60_added_partial", "C60_disabled_family", "C60_normalised", "C60_defaults", "C60_unparsable_violated"], "note": "Texts that are no addresses panic instead of being rejected."}
{"property": "C61", "status": "partial", "theorems": ["C61_roundtrip_partial", "C61_external", "C61_accepted", "C61_rejected", "C61_default_port_violated", "C61_ipv6_violated", "C61_slashes_violated", "C61_address_kind", "C61_bare_colon"], "note": "Proved for every layer of the program, IPv4 or named host, 16-bit port and node name or number, with and without the prefix ecla+; whatever is accepted is a static peer with one known layer; malformed texts are rejected with the right error. False in general: port 80 of http URLs is lost, IPv6 hosts become names with brackets, slashes in the node part are dropped. The URL parser is modelled for plain characters only; the parser of endpoint ids (bp7) is a hypothesis."}
{"property": "C62", "status": "partial", "theorems": ["C62_tcpcl_stream_cut_irrelevant_partial", "C62_request_during_read_loses_message_violated", "C62_partial_read_dropped_violated"], "note": "Cutting alone never matters; a local event between two pieces loses the pieces read so far."}
{"property": "C63", "status": "proved", "theorems": ["C63_mem_listings", "C63_sled_listings"], "note": "Both stores, every history."}
{"property": "C64", "status": "partial", "theorems": ["C64_mem_add_if_unknown", "C64_sled_add_if_unknown_partial", "C64_sled_removed_violated"], "note": "Both stores, every history. In the persistent store a bundle that was removed before is answered with an error and not stored, although none with its id is available."}
{"property": "C65", "status": "partial", "theorems": ["C65_flooding_answers_all", "C65_sink_answers_all", "C65_epidemic_answers_all_partial", "C65_spray_answers_all_partial", "C65_static_answers_all_partial", "C65_null_destination_stops_epidemic_violated", "C65_null_destination_stops_spray_violated", "C65_bad_routes_file_stops_static_violated", "C65_external_takes_requests_partial", "C65_dropped_neighbour_stops_external_violated"], "note": "Flooding and sink fully; epidemic and spray stop for good when asked for a bundle addressed to dtn:none, static routing when a malformed file is reloaded. External routing stops on a notification about a neighbour already removed from the peer table."}
{"property": "C66", "status": "proved", "theorems": ["C66_refuses_only_known"], "note": "Every history of a session."}
{"property": "C67", "status": "proved", "theorems": ["C67_routes_file", "C67_routes_file_unambiguous", "C67_printed_route_read_back"], "note": "Every file; blanks are all white space of Unicode."}
{"property": "C68", "status": "proved", "theorems": ["C68_removals_justified"], "note": ""}
{"property": "C69", "status": "proved", "theorems": ["C69_delivered_at_most_once"], "note": ""}
{"property": "C70", "status": "proved", "theorems": ["C70_sent_only_where_the_router_said"], "note": ""}
{"property": "C71", "status": "proved", "theorems": ["C71_delivery_statistic"], "note": ""}
{"property": "C72", "status": "proved", "theorems": ["C72_stored_until_removed"], "note": ""}
{"property": "C73", "status": "partial", "theorems": ["C73_second_router_refused", "C73_one_router_partial", "C73_next_router_accepted_partial", "C73_two_routers_violated", "C73_slot_lost_violated"], "note": "False when two routers connect at the same moment (check and recording are separate critical sections) and after a router sent binary data that is no text."}
{"property": "C74", "status": "partial", "theorems": ["C74_well_behaved_modules_are_safe_partial", "C74_bad_beacon_stops_all_modules_violated", "C74_second_refusal_stops_all_modules_violated", "C74_binary_data_stops_all_modules_violated"], "note": "Proved if all packets are well formed; three kinds of input poison a shared lock and stop all modules."}
{"property": "C75", "status": "partial", "theorems": ["C75_no_deadlock_without_submissions_partial", "C75_no_deadlock_with_submissions_partial", "C75_packet_and_submission_violated", "C75_announcement_and_submission_violated"], "note": "Proved for operations without submissions and for submissions alone; the two mixtures can deadlock because locks are taken in opposite order."}
{"property": "C76", "status": "partial", "theorems": ["C76_bundle_reaches_its_module_partial", "C76_failure_reported_partial", "C76_success_without_transfer_violated", "C76_written_in_order"], "note": "Success is also reported when the module's connection could not take the packet."}
{"property": "C77", "status": "partial", "theorems": ["C77_announcements_reach_modules_partial", "C77_unwanted_beacons_violated"], "note": "Modules that disabled beacons receive them as well."}
{"property": "C78", "status": "partial", "theorems": ["C78_registration_answered_partial", "C74_bad_beacon_stops_all_modules_violated", "C74_second_refusal_stops_all_modules_violated"], "note": "Proved while no lock was poisoned. Missing: after one of the packets of C74 that poison the locks of all modules, where no registration is answered any more (C74_*_violated)."}
{"property": "C79", "status": "partial", "theorems": ["C79_static_peer_stays_partial", "C79_static_peer_lost_violated"], "note": "Proved unless a beacon names the statically configured node; such a beacon makes the peer dynamic."}
{"property": "C80", "status": "partial", "theorems": ["C80_announcing_goes_on_partial", "C80_announcing_stops_violated"], "note": "Proved for services within the documented limits; any other service stops announcing."}
{"property": "C81", "status": "partial", "theorems": ["C81_beacons_describe_the_node_partial", "C81_configured_services_violated"], "note": "Services of the configuration are never announced."}
{"property": "C82", "status": "partial", "theorems": ["C82_neighbour_learns_partial", "C52_period_rounded_violated"], "note": "End to end through writer and reader; intervals arrive in whole seconds only."}
{"property": "C83", "status": "proved", "theorems": ["C83_register", "C83_unregister", "C83_endpoints_unique", "C83_fetch", "C83_delete", "C83_store_wellformed", "C83_download", "C83_submit", "C83_push", "C83_failure_harmless", "C83_insert_get", "C83_peer_added", "C83_peer_removed", "C83_routing_command", "C83_send_other"], "note": "With the in-memory store; parsers are parameters."}
{"property": "C84", "status": "partial", "theorems": ["C84_answered_partial", "C84_answered_violated"], "note": "Exactly which requests can go unanswered is proved; an unreadable destination, peer type or service name closes the connection."}
{"property": "C85", "status": "partial", "theorems": ["C85_parallel", "C85_sequential_partial", "C85_puller_dies_violated", "C85_port"], "note": "Holds with parallel processing; without it an unreadable answer of one peer ends the puller for good."}
{"property": "C86", "status": "partial", "theorems": ["C86_in_order", "C86_drained", "C86_lost_at_end_violated", "C86_no_payload_violated"], "note": "Order and completeness proved while the connection lasts. Bundles pending at its end are lost, and bundles without payload are dropped in the data modes."}
{"property": "C87", "status": "partial", "theorems": ["C87_first_sent_partial", "C87_waits", "C87_second_stuck_violated", "C87_service_name_violated"], "note": "Only the bundle waiting longest is sent; the others stay until the next command, and later bundles overtake them."}
{"property": "C88", "status": "partial", "theorems": ["C88_submitted", "C88_silent_violated"], "note": "Submission is exact for all messages; data with an unreadable address is dropped without an answer."}
{"property": "C89", "status": "partial", "theorems": ["C89_settings_partial", "C89_flags_partial", "C89_flags_violated", "C89_destinations_violated"], "note": "With a configuration file all flags of the command line are ignored, and destinations on the command line are added to the default ones. Assumes numbers and time spans of the file to be proper (see C94)."}
{"property": "C90", "status": "partial", "theorems": ["C90_node_id", "C90_big_number_violated"], "note": "Numbers of 2^64 and more become dtn names. The parser of endpoint ids is a parameter, assumed to read node names and numbers."}
{"property": "C91", "status": "partial", "theorems": ["C91_layers_partial", "C91_globals_partial", "C91_unknown_violated", "C91_cut_violated", "C91_second_global_violated", "C91_override_violated"], "note": "Unknown layers are ignored, values are cut at a second =, only the first global setting of an option counts, and local settings override global ones."}
{"property": "C92", "status": "partial", "theorems": ["C92_services_partial", "C92_colon_violated"], "note": "Payloads are cut at a colon."}
{"property": "C93", "status": "proved", "theorems": ["C93_routing_options", "C93_accepted"], "note": ""}
{"property": "C94", "status": "partial", "theorems": ["C94_rejected_partial", "C94_unknown_violated", "C94_file_port_violated", "C94_file_span_violated"], "note": "Unknown algorithms and stores on the command line are ignored; port numbers of the file are taken modulo 2^16, and time spans of the file that cannot be read count as 0."}
{"property": "C95", "status": "proved", "theorems": ["C95_running", "C95_starts"], "note": "Binding sockets is not modelled."}
{"property": "C96", "status": "proved", "theorems": ["C96_answer_final", "C96_work_ends", "C96_all_answered", "C96_transfers_kept", "C96_waits"], "note": "Answers never change; without new transfers only boundedly many steps follow (a measure); when nothing more can happen every transfer is answered. The model lets every system call return; one that never returns (there is a timeout only for HTTP) keeps its transfer waiting. For external modules that never answer see C76."}
{"property": "C97", "status": "partial", "theorems": ["C97_udp_success", "C97_udp_datagrams", "C97_ipv6_never_violated", "C97_http_success_partial", "C97_http_status_violated", "C97_external_success", "C97_passive_layers", "C97_dummy_violated", "C97_mtcp_success", "C97_mtcp_delivers_partial", "C97_mtcp_overlap_violated"], "note": "Exact for UDP and external layers. HTTP: any response counts, also 400. MTCP: what is missing is the case of overlapping transfers to the same address, for which the property is false: their frames can be mixed on one connection, both succeed and the peer gets neither. UDP and HTTP never succeed to IPv6 addresses. The dummy layer reports success without sending."}
{"property": "C98", "status": "partial", "theorems": ["C98_layer_survives_partial", "C98_bad_destination_violated", "C98_peer_destinations_violated"], "note": "False for MTCP and UDP: the command loop parses the destination with unwrap, and destinations of peers with IPv6 address (printed without brackets) or host name do not parse. The layer's task ends and all waiting and later transfers are lost. Proved for all other layers and for destinations that are socket addresses."}
{"property": "C99", "status": "partial", "theorems": ["C99_udp_receives", "C99_udp_error_violated", "C99_mtcp_receives_partial", "C99_mtcp_end_to_end_partial"], "note": "UDP: exact for all datagrams; an error of recv_from ends the listener. MTCP: exact up to the first frame that is no bundle, which ends the connection. The end-to-end theorem joins the sending layer of one node with the receiving side of another."}
{"property": "C100", "status": "partial", "theorems": ["C100_no_deadlock_partial", "C100_all_return_partial", "C100_start_page_violated"], "note": "False: the start page holds the configuration while it counts the peers, and the janitor holds the peers while it reads the configuration for each dynamic peer. Proved for every other combination (apart from the deadlock of external modules in C75): no deadlock, every schedule is bounded by the number of lock operations and ends with all calls returned. Only locks are modelled, not full channels or sockets that never become ready."}
{"property": "C101", "status": "proved", "theorems": ["C101_queue"], "note": "For the processing model with all calls interleaved at lock granularity; unregistering the endpoint discards what is waiting (C10)."}
{"property": "C102", "status": "proved", "theorems": ["C102_delivered_once"], "note": "While the bundle is handled nothing else happens at the node but the passing of time; the hypothesis on administrative records excludes the code path in which an unreadable record is dropped."}
{"property": "C103", "status": "partial", "theorems": ["C103_fetch_partial", "C103_nothing", "C103_download", "C103_short_violated", "C103_file_violated"], "note": "False as stated: a bundle whose encoding has at most 50 bytes is taken from the queue but not written, with exit code 0 (C103_short_violated); if the output file cannot be written the bundle is lost (C103_file_violated). Names with characters a URL changes are excluded."}
{"property": "C104", "status": "partial", "theorems": ["C104_truth_partial", "C104_name_violated"], "note": "Missing: names that a URL changes; for 'in#old' the endpoint 'in' is unregistered (C104_name_violated)."}
{"property": "C105", "status": "partial", "theorems": ["C105_submits_partial", "C105_failure_harmless", "C105_refused_violated", "C105_foreign_violated"], "note": "False as stated: code 0 is also given when the daemon refuses the bundle (C105_refused_violated) and when it drops it because the sender is foreign (C105_foreign_violated)."}
{"property": "C106", "status": "proved", "theorems": ["C106_message_arrives", "C106_busy"], "note": "Bundles whose encoding has at most 50 bytes are excluded by hypothesis (see C103); while the bundle is processed nothing else happens at the node but the passing of time. C106_busy holds on a busy node, whatever runs beside it."}
{"property": "C107", "status": "partial", "theorems": ["C107_one_per_bundle_partial", "C107_never_twice", "C107_ends", "C107_handshake", "C107_verbose_violated"], "note": "Missing: bundles without payload; with --verbose such a bundle ends the tool (C107_verbose_violated)."}
{"property": "C108", "status": "partial", "theorems": ["C108_filter_partial", "C108_listings", "C108_json", "C108_verbose_violated", "C108_text_violated", "C108_digest_violated", "C108_store", "C108_store_told", "C108_peers", "C108_info", "C108_json_values", "C108_codes"], "note": "False as stated: -v ignores the filter (C108_verbose_violated), characters such as & in the address change the filter (C108_text_violated), and the digest covers deleted bundles that are not listed (C108_digest_violated). The other pages are exact."}
{"property": "C109", "status": "partial", "theorems": ["C109_stored", "C109_delivered", "C109_waiting", "C109_sent", "C109_announced", "C109_same_id_violated"], "note": "That the application's endpoint is the destination needs that no two bundles with the same id and different destinations were given to the node: the second replaces the first in the store, even if it is then refused, and goes to the first one's endpoint (C109_same_id_violated)."}
{"property": "C110", "status": "proved", "theorems": ["C110_integrity", "C110_on_the_way", "networkWitness"], "note": "Transfers between nodes may be lost, duplicated, delayed and reordered, but not altered; nodes may restart with or without their store."}
{"property": "C111", "status": "partial", "theorems": ["C111_hops_partial", "C15_hop_limit_violated", "C19_wrong_block_violated"], "note": "Missing: limit 255, where the count starts again at 0 (C15_hop_limit_violated), and bundles with an unknown block that asks for removal, where the hop count block may be removed instead (C19_wrong_block_violated)."}
{"property": "C112", "status": "proved", "theorems": ["C112_handed_on", "C112_chain", "C112_busy_chain"], "note": "C112_handed_on and C112_chain are about nodes that are otherwise idle while they process the bundle; C112_busy_chain is about nodes that do anything else before and at the same time, where a hop is a reception, a submission or a janitor run, and the bundle must not be removed or replaced meanwhile. The convergence layers transmit what they are given (what they transmit is another property)."}
{"property": "C113", "status": "proved", "theorems": ["C113_carried_out", "C113_received", "C113_submitted", "C113_waiting"], "note": "Conditions on the execution hold in every state of the path (Throughout). Sequential janitor runs need that the previous node blocks of all stored bundles can be read: one that cannot aborts the run (C19, C111)."}
{"property": "C114", "status": "proved", "theorems": ["C114_never_blocked", "C114_every_call_ends", "C114_no_endless_work", "C114_rest"], "note": "A convergence layer answers every transfer (C96) and the router every question (C39, C65); locks are the subject of C100. That the janitor waits for the forwarding it started in parallel is left out."}
{"property": "C115", "status": "partial", "theorems": ["C115_in_order", "C115_registers_first", "C115_relays", "C115_router_relays", "C115_result", "C115_router_result", "C115_serves_until", "C115_address", "C115_refuses", "C115_ipv6_violated", "C115_bad_port_violated", "C115_reconnect_violated", "C115_full_violated", "C115_early_violated", "C115_lost_violated", "C115_binary_violated"], "note": "Order, relaying, results and addresses are proved. The code does not keep the rest: a second call of serve on the same client puts nothing on the new connection and reports success; 100 commands before serve block the registration for ever; commands given before it are sent before the registration and ignored by the daemon; packets after a lost connection are lost without an error; IPv6 addresses are refused; the router's client panics at a bad port, and both panic at a message that is not UTF-8."}
{"property": "C116", "status": "proved", "theorems": ["C116_neighbours", "C116_next_round", "C116_flooding"], "note": "Combines the routing agent (C34), the forwarding of what it decides (C113) and the janitor (C113). The bundle must stay in the store; what is handed to a convergence layer may be lost there (C96)."}
{"property": "C117", "status": "partial", "theorems": ["C117_answer_final", "C117_work_ends", "C117_waits_for_peer", "C117_over", "C117_all_answered", "C117_success", "C117_once", "C117_sent", "C117_one_connection", "C117_back_channel", "C117_survives", "C117_ipv6_violated", "C117_silent_peer_violated", "C117_entries_stay_violated", "C117_hangs_up", "C117_bounded"], "note": "Proved for all histories of one layer. False in three cases: peers with an IPv6 address or a name can never be reached, a peer that accepts a connection but stays silent keeps transfers waiting for ever, and the table keeps an entry for every address that ever connected. With refuse_existing_bundles a refusal counts as confirmation (C46)."}
{"property": "C118", "status": "proved", "theorems": ["C118_received", "C118_success", "C118_no_failure", "C118_answered", "C118_complete"], "note": "Two arbitrary histories of the layer model, one per node, joined by a connection that carries what is written to it. The framing of messages as bytes is C43 and C44."}
{"property": "C119", "status": "proved", "theorems": ["C119_undisturbed", "C119_no_protocol_error", "C119_in_order", "C119_settles", "C119_not_a_bundle"], "note": "Two connected sessions of the model. C119_not_a_bundle shows why the transfers must be bundles."}
{"property": "C120", "status": "proved", "theorems": ["C120_carried"], "note": "Composition of C116 along any list of contacts. Contacts are the janitor runs during which the next node can be reached; the bundle is alive meanwhile. That what is handed over for a neighbour is what comes out there is the subject of C118/C119 and C14."}
{"property": "C121", "status": "partial", "theorems": ["C121_answered", "C121_known_peers", "C121_flooding", "C121_at_most_once", "C121_not_back", "C121_new_peers_partial", "C121_same_as_builtin_partial", "C121_direct_violated", "C121_ends_violated", "C121_flooding_twice_violated", "C121_not_accepting_violated"], "note": "Proved for all packet sequences: answers, known peers, at most once, not back, all new peers, equality with built-in epidemic routing for far destinations. The code violates the rest: when the destination is a neighbour, neighbours after it in the table are named too; a bundle without destination node ends the program; flooding names a neighbour once per layer; layers that accept nothing are offered and picked again and again."}
{"property": "C122", "status": "partial", "theorems": ["C122_follows_partial", "C122_well_told", "C122_replies_partial", "C122_failed_peer_violated", "C122_session_violated", "C122_http_violated"], "note": "Proved for beacons, periodic checks and failures that remove no peer. The node tells nothing when it removes a peer after failed transfers, when a tcp session adds one, or when one is added or deleted over http."}
{"property": "C123", "status": "partial", "theorems": ["C123_once_in_order", "C123_all_answered", "C123_serves", "C123_goes_on", "C123_answers", "C123_loop_violated", "C123_anonymous_violated", "C123_waiting_violated"], "note": "Proved for all histories and interleavings, for bundles whose source and destination can be read back from text. The code violates the rest: a bundle that names the service as its source makes it answer itself without end; the answer to an anonymous bundle goes to dtn:none, which stops the epidemic router; bundles that came before the service subscribed are never answered."}
{"property": "C124", "status": "partial", "theorems": ["C124_ends", "C124_one_at_a_time", "C124_terminates", "C124_matched_partial", "C124_timeout_partial", "C124_late_violated", "C124_any_bundle_violated", "C124_zero_violated", "C124_heartbeat_violated"], "note": "Proved: number and order of pings, end and exit code; reports match the pings as long as no read times out. The code violates the rest: late replies count for the next ping, any bundle counts as a reply, zero pings never end, and heartbeats of the node restart the timeout."}
{"property": "C125", "status": "partial", "theorems": ["C125_in_order", "C125_no_gaps_partial", "C125_all_delivered_partial", "C125_peers", "C125_announced_partial", "C125_addresses", "C125_announced_address", "C125_drains_partial", "C125_stuck_violated", "C125_early_violated", "C125_dropped_violated"], "note": "Proved for all runs: receivers, order, no duplicates, addresses, and that nodes hear only of connected nodes. Without gaps and complete if the receiver's client registers before it is given anything, its writes succeed, and no channel is full. The code violates the rest: bundles that reach a client before it has queued its registration are lost though the sender was told they were sent; announcements are dropped when a channel is full; a node that does not read stops the traffic between all others."}
{"property": "C126", "status": "partial", "theorems": ["C126_in_order", "C126_sent_in_order_partial", "C126_all_sent_partial", "C126_on_the_wire", "C126_mtcp_readable", "C126_json_readable_partial", "C126_given_in_order", "C126_mtcp_only_bundles", "C126_mtcp_across", "C126_json_across_partial", "C126_keeps_running_partial", "C126_lost_violated", "C126_ended_by_peer_violated", "C126_json_large_violated", "C126_json_dropped_violated", "C126_json_foreign_violated", "C126_json_stops_node_violated", "C126_json_stays_violated", "C126_addressed", "C126_mtcp_no_gap"], "note": "Proved: order, at most once, whole bundles, reading back under every segmentation, and delivery across two MTCP programs. The code violates the rest: a bundle whose connection or writing fails is gone although the node was told that it was sent; a peer that connects from an address that bundles are sent to can make the program panic; the JSON program drops packets when its channel is full, cannot be read after a packet above 8 MiB, passes any packet of a stranger to the node, which can stop all external convergence layers, and goes on without its node."}
{"property": "C127", "status": "proved", "theorems": ["C127_received", "C127_submitted"], "note": "Strengthens C102 from an undisturbed node to every interleaving, and complements the upper bound of C69. Bundles with unknown blocks that ask to be removed or to have the bundle deleted are excluded (C19). An administrative bundle must carry a record that can be read; the code deletes it otherwise."}
{"property": "C128", "status": "proved", "theorems": ["C128_kept", "C128_dropped", "C128_taken_once", "C128_silent"], "note": "The whole bundle processing over the persistent store, with restarts. The database itself is trusted to keep each flushed write (C62)."}
{"property": "C129", "status": "partial", "theorems": ["C129_carried_out", "C129_resumed_partial", "C129_stranded_violated", "C129_janitor_violated", "C129_spray_restart_violated"], "note": "Proved for bundles that are marked as waiting to be forwarded, if bundles are processed in parallel (the default). The code disagrees with the rest: a bundle without this mark (queued for an application, or stopped between reception and forwarding) is never handled again unless it is submitted again, and with sequential processing one removed bundle that is still listed as waiting aborts the janitor before it comes to the others."}
{"property": "C130", "status": "partial", "theorems": ["C130_hop_limit_partial", "C130_lifetime", "C130_age_partial", "C130_previous_node", "C130_recipients", "C130_reports", "C130_removals", "C130_deleted_never", "C130_deleted_gone_partial", "C130_hop_limit_violated", "C130_too_old_violated"], "note": "Missing: a hop count of 255, for which the limit is not kept (C130_hop_limit_violated), and that a bundle is dropped once its age reaches its lifetime, which is false (C130_too_old_violated). Bundles with blocks that ask for their deletion are never taken up (C130_deleted_never) and are gone at rest unless the process was stopped in between (C130_deleted_gone_partial, C131_left_violated)."}
{"property": "C131", "status": "partial", "theorems": ["C131_never", "C131_not_kept_partial", "C131_left_violated"], "note": "never sent: in all histories; not kept: without a stop of the process during the submission, otherwise the bundle stays in the database (C131_left_violated)"}
{"property": "C132", "status": "proved", "theorems": ["C132_stored", "C132_delivered", "C132_waiting", "C132_sent", "C132_announced"], "note": "all histories; the addressee is guaranteed if ids are distinct (C109_same_id_violated)"}
{"property": "C133", "status": "partial", "theorems": ["C133_integrity", "C133_kept", "C133_hops_partial", "C15_hop_limit_violated", "C19_wrong_block_violated", "C133_not_lost"], "note": "integrity in full; the hop limit without limits of 255 and bundles with unknown blocks that ask for removal, for which it fails (C15_hop_limit_violated, C19_wrong_block_violated)"}
{"property": "C134", "status": "partial", "theorems": ["C134_received_partial", "C134_submitted_partial", "C134_queue", "C129_stranded_violated"], "note": "proved as long as the process is not stopped after the bundle arrived; bundles that wait for their application when the process is stopped are never given to it (C129_stranded_violated)"}
{"property": "C135", "status": "partial", "theorems": ["C135_given_once", "C135_one_report_per_event", "C135_sent_only_where_the_router_said", "C135_statistics_partial", "C135_router_told_partial", "C135_uncounted_violated", "C23_unnamed_violated"], "note": "a bundle whose id is known although the bundle was removed is refused, and the reception not counted (C135_uncounted_violated); the router's neighbours must have names (C23_unnamed_violated)"}
{"property": "C136", "status": "partial", "theorems": ["C136_never_stops", "C136_never_stops_partial", "C136_again_and_again", "C136_stopped_violated"], "note": "with parallel processing (the default) in full; without it, a bundle whose previous node block cannot be read stops the janitor for good (C136_stopped_violated; whether such a block gets past the decoder is up to the bundle library), and C136_never_stops_partial assumes there is none"}
{"property": "C137", "status": "partial", "theorems": ["C137_expired_removed", "C137_offered_again", "C137_lost_neighbours_dropped", "C137_kept_for_ever_violated", "C137_other_neighbours_kept"], "note": "with parallel processing, or if the previous node blocks of the stored bundles can be read; otherwise the janitor may have stopped, and bundles stay for ever (C137_kept_for_ever_violated)"}
{"property": "C138", "status": "proved", "theorems": ["C138_never_blocked", "C138_every_call_ends", "C138_rest"], "note": "a step of a task is assumed to end, and transfers to come back with an outcome"}
{"property": "C139", "status": "partial", "theorems": ["C139_never_stops", "C139_again_and_again", "C139_expired_removed", "C139_offered_again", "C139_lost_neighbours_dropped", "C139_stopped_violated"], "note": "with parallel processing (the default); without it, a bundle that is removed while the janitor is about to forward it stops the janitor for good, and again in the first run after every restart (C139_stopped_violated), since looking up a bundle that is not there panics with the database"}
{"property": "C140", "status": "partial", "theorems": ["C140_waiting_at_rest_partial", "C140_goes_on_waiting_partial", "C140_again_and_again_partial", "C140_stuck_violated"], "note": "proved for bundles none of whose unknown blocks asks to be removed; the reception of other ones may abort after the bundle was stored, and it then stays in the store without waiting and is never taken up again (C140_stuck_violated)"}
{"property": "C141", "status": "partial", "theorems": ["C141_written", "C141_read_partial", "C141_contact_header_read", "C141_session_items_violated", "C141_session_terminating_violated", "C141_critical_item_violated", "C141_bundle_id_item_violated"], "note": "The layout of RFC 9174 is written down in Spec/TcpclLayout. Not understood: a SESS_INIT with session extension items, a XFER_REFUSE with the reason code 6 (Session Terminating). Unknown transfer extension items marked as critical are dropped instead of refused. The item type 1, in the RFC the length of the transfer, is used for the id of the bundle. Segments of 2^63 bytes and more are a panic (C44)."}
{"property": "C142", "status": "partial", "theorems": ["C142_written", "C142_read", "C142_round_trip", "C142_frames", "C142_addr_violated"], "note": "The grammar of JSON is written down in Spec/JsonGrammar, the documented packets in Spec/EclaJson. The documentation calls the address of a beacon optional, but a beacon without it is not understood (C142_addr_violated). Parameters: the reader of endpoint ids (bp7) and which numbers are too large for f64 (such numbers in further fields are errors)."}
{"property": "C143", "status": "partial", "theorems": ["C143_written", "C143_read_partial", "C143_round_trip_partial", "C143_services_violated", "C143_add_service_violated", "C143_field_names_violated"], "note": "Packets that name services (the state of the services, and peers that announce services) cannot be read by the client library, because the reader of a map with numbers as keys does not take names of fields once the object was read ahead to find its type; the documented type AddService and the documented fields bundle and services are called ServiceAdd, bndl and service_list in the code. Parameters: reading of endpoint ids, IP addresses and bundles (other crates), which numbers are too large for f64. Not modelled: packets and structures given as JSON lists."}
{"property": "C144", "status": "proved", "theorems": ["C144_layout", "C144_read", "C144_back", "C144_distinct", "C144_nothing_after", "C144_store"], "note": "The hypothesis Fits says that values fit their Rust types and that node names contain no slash. Bundles themselves are written and read by the crate bp7 and are kept as they are. Texts a node never writes, such as ones with further keys, are refused in the model where the crate skips the key."}
{"property": "C145", "status": "partial", "theorems": ["C145_received", "C145_generated_partial", "C145_learned_partial", "C145_no_beacon_violated", "C145_own_beacon_violated"], "note": "Missing because the code does not do it: a service outside the documented limits, which is not checked when it is registered, makes generating a beacon panic; a node that hears its own beacon lists itself as a peer. The reader of endpoint ids in JSON (crate bp7) is assumed to read the documented form. The notification of the router is taken to be queued."}
{"property": "C146", "status": "partial", "theorems": ["C146_kept", "C146_metadata_partial", "C146_no_metadata", "C146_listings", "C146_endpoints_partial", "C146_endpoints_violated", "C146_numbers_violated", "C146_administrative_violated", "C146_waiting_violated", "C146_forgotten_violated"], "note": "Missing because the code does not do it: endpoints in the scheme dtn are read back as dtn:none (or as ipn, if they are numbers), the administrative flag is lost, bundles waiting to be forwarded are not pending, removal leaves no tombstone. Directory and database (crate d7sneakers) and the reader of endpoint ids (crate bp7) are parameters; what is assumed of them is `Spec.SneakersSpec.Lawful` and the hypotheses of the theorems."}
{"property": "C147", "status": "partial", "theorems": ["C147_spends_copies_partial", "C147_destination_as_relay_violated", "C147_relays_dropped_violated", "C147_reports_stay_violated"], "note": "The answer is determined exactly over whole histories with one announcement, no failures and no earlier direct delivery. Refuted: the destination listed among the first neighbours is treated as a relay; copies collected before a direct delivery are spent without being sent."}
{"property": "C148", "status": "partial", "theorems": ["C148_waiting_at_rest_partial", "C148_goes_on_waiting_partial", "C148_again_and_again_partial", "C148_stopped_violated"], "note": "Proved for executions without a stop while tasks are running (coming to rest), and over stops at any time except in the middle of the bundle's own removal (going on waiting). False if the process is stopped while the bundle is processed (C148_stopped_violated). Bundles with unknown blocks that ask to be removed are excluded as in C140."}
{"property": "C149", "status": "proved", "theorems": ["C149_copies", "C149_got_once", "C149_not_back"], "note": "The node and its router are taken together: the router handles what the node says in the order in which the node says it (TalksTo in Spec/RouterTalk.lean). Bundles are identified by their id. The way back is for bundles of which the router first hears with the node they came from, as it is when a bundle is received."}
{"property": "C150", "status": "partial", "theorems": ["C150_copies_partial", "C150_transfers_partial", "C150_others_bundles", "C150_failed_direct_violated"], "note": "Proved with a budget for every time the bundle comes in as a new one or is submitted, and one more copy for every failure of direct delivery (both as in C35 and C36). False if a transfer to the destination fails: the bundle of another node is then relayed (C150_failed_direct_violated)."}
{"property": "C151", "status": "proved", "theorems": ["C151_sink", "C151_flooding", "C151_epidemic", "C151_spray", "C151_static"], "note": "Node and router are taken together as in C149; every start of the node starts the router anew. Bundles are identified by their id, and their destination is the one the router is asked with."}
{"property": "C152", "status": "partial", "theorems": ["C152_epidemic_copies_partial", "C152_epidemic_got_partial", "C152_spray_copies", "C152_spray_transfers", "C152_again_violated", "C152_back_violated"], "note": "Proved: with epidemic routing, at most one successful transfer per neighbour and start, and one more copy for each failure told; with spray and wait, the budget per submission holds over all starts together. The code disagrees with the rest: the epidemic router keeps its history in memory only, so after a restart a neighbour gets a bundle again, even the one it came from."}
{"property": "C153", "status": "proved", "theorems": ["C153_everywhere", "C153_spread"], "note": "Composes the budgets of the single nodes (C152). Nodes with the persistent store may be restarted any number of times; those with the store in memory run without a restart. That copies come in only at the node they were handed over for is an assumption about the convergence layers."}
{"property": "C154", "status": "partial", "theorems": ["C154_bundles", "C154_peers_partial", "C154_index", "C154_download_partial", "C154_markup_violated", "C154_last_seen_violated", "C154_link_violated", "C154_module_markup_violated"], "note": "The pages of bundles and settings are exact for all contents. False for the page of neighbours if an address contains markup, which modules of external convergence layers can announce (C154_markup_violated), and after the clock was set back (C154_last_seen_violated). Links of bundles whose ids have characters such as # lead nowhere (C154_link_violated)."}
