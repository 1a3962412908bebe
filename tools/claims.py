"""The claims of MANIFEST.json: property, status, theorems, note."""
P="Demag.Props."
def c(p,status,ths,note=""): return {"property":p,"status":status,"theorems":[P+t for t in ths.split()],"note":note}
L=[
c("C01","proved","infoHash_fromStr_spec infoHash_display_spec infoHash_roundtrip infoHash_case_insensitive infoHash_display_injective infoHash_accepted_length infoHash_fromStr_error infoHash_base32_error","parsing and printing characterised against hexadecimal and base32 written out as numerals"),
c("C02","proved","toCompact_spec sockFromCompact_spec compact_roundtrip compact_canonical sockFromCompact_error v4s_spec v6s_spec v4s_accepts_iff v6s_accepts_iff v4s_roundtrip v6s_roundtrip node4_spec node6_spec node4s_spec node6s_spec node4s_accepts_iff node6s_accepts_iff node4_address node6_address",""),
c("C03","proved","coreMessage_encode_spec coreMessage_roundtrip coreMessage_decode_sound coreMessage_decode_spec coreMessage_decode_error coreMessage_decode_empty coreMessage_decode_injective",""),
c("C04","proved","handshake_encode_spec handshake_decode_spec handshake_roundtrip handshake_accepts_iff",""),
c("C05","proved","fromIter_has fromIter_bits and_has has_reserved bit_injective shown_spec",""),
c("C06","proved","registry_bijective registry_injective register_ok register_error fromM_spec toM_spec m_roundtrip","for any type of extensions, of which the code has one"),
c("C08","proved","metadata_decode_spec metadata_encode_spec metadata_roundtrip metadata_encode_injective metadata_trailing metadata_missing message_roundtrip message_encode_error",""),
c("C09","proved","extendedHandshake_decode_spec extendedHandshake_encode_spec extendedHandshake_roundtrip extendedHandshake_decode_sorted message_roundtrip",""),
c("C10","proved","decodeBencode_spec bencode_roundtrip benc_injective benc_prefix_free decodeBencode_error emit_spec","bendy's parser is modelled from its documentation"),
c("C45","proved","peerId_generate_spec peerId_generate_all peerId_client_prefix",""),
c("C52","proved","checkBencodeDict_spec checkBencodeDict_errors",""),
c("C53","proved","tryGetUint_spec tryGetUint_fails_iff put_then_get tryGetBytes_spec tryGetAll_spec tryGetAll_u32 eof_spec",""),
c("C11","proved","pieces_cover builder_new_spec push_accepts_iff next_piece_spec push_error_spec",""),
c("C12","proved","build_spec build_error_spec build_sound_any push_error_must_stop name_spec","SHA-1 is an arbitrary function"),
c("C13","proved","torrentFile_dict torrentFile_canonical torrentFile_reads torrentFile_verbatim creationDate_spec save_spec torrentFile_too_deep deep_info_accepted torrent_node_text torrent_nodes_injective","the written file is exactly the intended dictionary; a reader with the nesting limit of bendy reads it back if the metadata is nested at most 2047 levels, and this bound is sharp"),
c("C15","proved","template_accepts_iff template_error_iff malformed_unique template_error_says format_spec escape_reads reads_unique",""),
c("C16","proved","sanitize_spec sanitize_clean sanitize_idem",""),
c("C17","partial","save_components save_component_partial save_component_iff default_save save_dotdot save_stdout save_spec","names never change the number of components; a component consisting of the name alone can be `..` and a bare {name} can be `-`: proved as counterexamples, with the claim proved for every component in which the template fixes a character or the hash; save_component_iff says exactly which components can become special"),
c("C07","proved","recvN_spec recvN_independent frameEncode_spec framing_roundtrip frames_exist","tokio-util's codec is modelled from its documentation and source; the reads may divide the bytes in any way"),
c("C14","proved","session_spec session_refused requests_in_order requests_answered session_success session_no_panic session_complete visit_complete session_exact talks_exact talks_exists task_ok_iff","every conversation is one of those listed in Spec/Session.lean, and conversely a conversation that the peer and the network allow is the one that takes place (session_exact); task_ok_iff says exactly when a peer gives the metadata"),
c("C51","proved","connect_spec run_spec requests_after_greetings visit_sent haveNone_only haveNone_always run_success run_panic run_no_panic connect_complete visit_complete","every outcome of connecting is one of those listed in Spec/Connect.lean"),
c("C31","proved","crypto_policy run_spec always_encrypts never_encrypts required_encrypts fallback_only attempts_bounded query_peer_mode","the outcome of the encryption handshake is an input of the model"),
c("C21","proved","udpConnectRequest_spec udpAnnounceRequest_spec",""),
c("C22","proved","udpConnectResponse_spec udpAnnounceResponse_spec udpResponse_failure udpResponse_ok udpConnectResponse_no_failure udpAnnounceResponse_no_failure udpConnect_ok udpAnnounce_accepted_iff udpAnnounce_layout_functional",""),
c("C23","partial","udp_peers_answer_request_partial udp_connection_answers_request_partial udp_transmits udp_error_causes udp_foreign_error_accepted","true of peers and connection ids; false of error packets, whose transaction id is not compared: udp_foreign_error_accepted is the counterexample"),
c("C24","partial","udp_request_fresh udp_announce_fresh_partial udp_stale_id_possible","every announce request is composed with a connection id at most 60 s old; a retransmission is too if timers fire when due; without that udp_stale_id_possible is a counterexample"),
c("C25","proved","udp_backoff udp_deadline udp_resends udp_no_early_timeout backoff_bounds udp_no_overflow",""),
c("C48","proved","udpUrl_split udpUrl_ofUrl udpUrl_roundtrip udpUrl_brackets tracker_parse tracker_parse_error udpUrl_ok tracker_shows tracker_roundTrip url_iff url_special_iff udp_tracker_iff http_tracker_iff trackers_named","UrlOk is met by every UDP URL that the model of Url::parse produces (udpUrl_ok); udp_tracker_iff and http_tracker_iff say which texts are trackers, down to characters; what IDNA makes of names that are not plain ASCII is a parameter"),
c("C26","proved","announceQuery_decodes query_text announceUrl_rest announceQuery_ascii","form_urlencoded's serialiser is modelled; the decoder in Spec/TrackerHttp.lean is independent of it"),
c("C27","proved","httpResult_ok httpResult_failure httpResult_transport httpPeer_text","lossy UTF-8 conversion and IP text parsing are parameters in httpResult_ok, instantiated by lossy_spec (C44) and httpPeer_text; the HTTP exchange is an input"),
c("C32","proved","trackerCrypto_policy trackerCrypto_options crypto_params announceQuery_decodes",""),
c("C49","proved","stop_only_after_start stop_iff_start stop_pending result_of_start result_and_warning announcement_fields","aborting the whole task from outside is the event `dropped`"),
c("C18","proved","magnet_ok magnet_iff magnet_order magnet_error parseXt_spec parseXt_error queryPairs_spec","magnet_iff says which texts are magnet links, down to characters; in the others URL parsing is a parameter; lossy UTF-8 reading is one here (C71 has it); form_urlencoded's parser is modelled on bytes and proved equal to the character level specification"),
c("C19","proved","magnetsFile_ok magnetsFile_error fileLines_spec trim_spec","tokio's line reader and str::trim are modelled"),
c("C28","proved","unique_spec unique_complete firsts_spec","the stream combinator unique_by is modelled poll by poll"),
c("C29","proved","nursery_concurrency nursery_fifo","async_channel, tokio mpsc and JoinSet are modelled as queues and worker states; one event per point at which a worker may be suspended"),
c("C30","proved","nursery_at_most_once nursery_end nursery_shutdown nursery_terminates nursery_progress","that jobs end and that the stream is polled is assumed for progress, not for safety"),
c("C50","proved","shutdown_returns shutdown_grace shutdown_cancels shutdown_progress","TaskTracker, CancellationToken and tokio's timeout are modelled; that a cancelled task ends is the task's own matter"),
c("C46","proved","resolve_file resolve_nothing resolve_dht_error tracker_task_ends resolve_contacts resolve_progress resolve_terminates resolve_panicked","tracker, peer and DHT tasks are inputs (their own theorems are C25-C27, C21 ff.); what happens after the result is there is not modelled"),
c("C20","proved","batch_exit batch_progress batch_terminates get_exit query_exit","logging and printing are not modelled except for the list of peers printed"),
  c("C43","proved","local_port_constant local_port_range local_port_int local_port_generate","the draw of crate rand is a parameter that lies in the range"),
  c("C44","proved","json_string json_string_ascii json_peer json_peer_ascii json_host json_address lossy_spec lossy_unique lossy_utf8","against an independent JSON parser (RFC 8259 without arrays and fractions); std's utf8_chunks, UTF-16 encoding and IP address printing are modelled"),
  c("C54","proved","inet_parse inet_resolve inet_resolve_family node_text node_colon","the name lookup is a parameter; node_text says which texts are addresses, down to characters (hosts: C74)"),
  c("C55","proved","comma_list comma_list_inj error_chain","the chain of sources of an error is finite"),
  c("C42","proved","query_encode prescan_spec response_ok response_rpc",
    "A query is the canonical bencoding of exactly its fields. A packet scans / decodes to a response / to an RPC error exactly when it is the canonical bencoding (depth at most 2048) of a dictionary whose fields denote it; everything else is rejected. The scan ignores bytes after the first object."),
  c("C36","proved","distance_value distance_order distance_zero distance_symm distance_triangle distance_injective distance_total","IDs and infohashes are 20 bytes; the order is that of the number the bytes denote"),
  c("C37","proved","closest_unqueried_spec closest_responsive_spec ranking_unique","over every history of additions, queries and marks"),
  c("C38","partial","lookup_once_partial lookup_once_false","An address is queried at most once more than it occurs among the bootstrap addresses, and that only if a response lists it, any other address at most once; so no address is queried twice if the bootstrap addresses differ and no response lists one of them. Full statement is false of the code: a bootstrap address that a response lists is queried again (witness run proved)."),
  c("C39","proved","requests_conserved lookup_requested lookup_answered answer_spec lookup_bounded lookup_progress internal_bounded no_reuse query_sent_iff","No bound on the run. Progress, and that a lookup with outstanding queries waits, need that no query carries the transaction ID of an outstanding query to the same address; no_reuse: so it is in the first 2^32 queries. Timers are assumed to run out."),
  c("C40","proved","mismatched_ignored consumed_once","No bound on the run; with a lookup, address and transaction ID given, there are never more ends than queries sent."),
  c("C41","proved","transaction_ids","No bound on the run; any 2^32 consecutive IDs are distinct."),
  c("C47","partial","closest_responded_partial closest_responded_false","Every reported address was listed under a node ID under which some address that answered was listed; the address itself answered if no two addresses were listed under one ID. Full statement is false of the code: with two addresses under one ID the wrong one is marked (witness run proved)."),
  c("C56","proved","query_fields",""),
  c("C33","proved","input_cut reply_outcome packet2_length segmentation handshake_ends plain_arrives encrypted_arrives methodSet_offers","Every packet is assumed to be sent successfully (a failure ends the handshake with the error); empty reads are a disconnect. Accepted replies, rejected replies with their reason, and incomplete ones are each characterised exactly."),
  c("C34","proved","sent_exactly key_agreement handshake_completes","For any 20-byte digest function; RC4 is modelled in full. A responder following the protocol is written out in the statement."),
  c("C35","proved","sent_is_written flushed_is_written read_is_sent end_to_end stream_progress","Over every sequence of writes, flushes and reads and every partial result of the network. Closing the connection without a flush loses what waits in the buffer."),
  c("C57","proved","ipText_is ipFromStr_iff ip_roundTrip ipText_injective sockFromStr_iff sockText_is peer_roundTrip sockText_injective peer_fromStr_iff ipv6Text_recommended","std's printing and parsing of addresses is modelled; a scope ID in the argument is accepted but not kept by the model's addresses"),
  c("C58","proved","download_writes download_authentic download_finds download_panic delivers_ok resolve_panicked","SHA-1 is an arbitrary function; the answers of trackers and the DHT are arbitrary; file system errors are outcomes of the effects"),
  c("C59","partial","download_hangs task_ends_partial download_ends_partial download_terminates silent_hangs stall_hangs task_hangs_iff download_goes_on_partial","false of the code: download_hangs; the partial theorems assume that no peer stalls after having agreed to talk; task_hangs_iff says exactly which peers keep us waiting for ever"),
  c("C60","proved","config_settings dht_default default_nodes config_nodes config_usable config_unknown","From the value tree that the crate toml makes of the file; dates, and preferences written as tables, are left out. The meaning of the keys is that of README.md."),
  c("C61","proved","config_choice program_steps program_succeeds","The option parser is C76; a command is any function of the configuration."),
  c("C62","proved","one_dht_actor dht_handle_progress","tokio's mutex is taken to be held by at most one task; a dead actor stays cached, so later lookups fail (C39)."),
  c("C63","proved","files_separate files_finish files_agree_iff files_mixed","For torrent files that go to different places; files_mixed is the counterexample for the same place, and files_agree_iff says exactly which files are certain to be whole at the end. The semantics of std::fs::write is part of the model."),
  c("C64","partial","batch_no_crash batch_saves hash_separates batch_on_disk_partial batch_on_disk_iff_partial batch_overwrites","false of templates without {hash}: batch_overwrites; batch_on_disk_partial is about templates with {hash} and magnet links with different info hashes; batch_on_disk_iff_partial says for any template exactly which torrent files are certain to be on the disk, whole"),
  c("C65","proved","wire_hidden crypto_outcome encrypted_as_plain encrypted_run","The digest is any function to 20 bytes; nothing is claimed about the strength of RC4 or Diffie-Hellman. A peer following the protocol is written out in Spec/SecureLink.lean."),
  c("C66","proved","ask_peers ask_datagrams ask_requests ask_once ask_answers_udp ask_answers_http ask_fails ask_reports ask_family","That a UDP packet comes from the address the socket is connected to is the kernel's doing (an event of the model); HTTP itself (reqwest) is an outcome."),
  c("C67","proved","printed_addresses printed_json printed_read_back printed_injective print_broken query_tracker_fails query_tracker_succeeds query_tracker_udp query_tracker_http query_dht query_dht_run","The order in which query-dht prints is that of a hash set: any order."),
  c("C68","proved","query_peer_writes query_peer_finds query_peer_flags","What a failed write leaves behind is the subject of C63. A peer that stalls is waited for without end (C59), which is no end of the command here."),
  c("C69","partial","download_no_panic_partial batch_no_crash_partial query_peer_crash overflow_iff timeout_crashes","false of excessive values of dh-exchange-timeout: timeout_crashes; the partial theorems are about every other accepted configuration"),
  c("C70","proved","get_contacts get_finds get_fails get_writes get_announces","That get comes to an end is not claimed here: C59 (a peer may stall it). The tasks that ask trackers do not panic (Model/TrackerFlow.lean has no panic); the network towards peers is a parameter, as in C58."),
  c("C71","proved","magnet_text magnet_text_needed magnet_written tracker_reads_plain tracker_plain tracker_roundTrip tracker_shows udpUrl_ok","Url::parse is modelled after the URL Standard for schemes that are not special; http and https trackers are C74. Links of the form magnet://authority?... are covered by magnet_text_needed only."),
  c("C72","proved","log_shown log_no_control quoted_read handshake_log_faithful peer_log_clean reply_log_clean saving_no_newline saving_control","Which characters are printable is std's (parameter plain). That the texts of errors of the system and of bendy, url, data-encoding and reqwest can be shown is assumed (EnvShown). saving_control shows that the path in the log is not free of control characters."),
  c("C73","proved","batch_text_success batch_text_failure batch_text_crash batch_text_finds batchLinks_iff","Composition of C18, C19, C20, C61 and C70. What different downloads do to one file is C63 and C64; that downloads end is not claimed (C59)."),
  c("C74","proved","hostParse_iff http_tracker_iff urlSpecial_iff http_plain plain_visible plain_reads http_roundTrip announce_reads","Url::parse and Host::parse are modelled after the URL Standard (crate url 2.5). What IDNA (crate idna) makes of names that are not plain ASCII is a parameter; http_plain and http_roundTrip assume of it that results are ASCII in lower case without forbidden characters and are results of themselves (IdnaOk)."),
  c("C75","proved","message_log_faithful bt_handshake_log_faithful event_log_faithful conversation_log_faithful node_log_faithful reply_log_faithful","A handshake we send is logged without its contents. Lines are compared with the same texts of the surroundings (LogEnv)."),
  c("C76","proved","command_line_iff command_line_spelled command_line_order command_line_expressible query_peer_given query_tracker_given","clap's rules for the declarations used here are modelled from its documentation; what a refused command line prints, and --help and --version, are not distinguished (none). Arguments are Unicode texts."),
  c("C77","proved","program_writes program_success program_quiet program_config program_get_finds readers_spec","Composition of C76, C61, C70, C73, C67 and C68. A write counts when it is complete: what an interrupted or failed write leaves is C63. That the program ends is not claimed (C59). Log output is C72 and C75."),
  c("C78","proved","failure_told errors_true warnings_true vain_told batch_summary saving_true writes_told announced_before summary_last moments_log log_moments fetch_told config_told log_run run_log failure_shown","Messages of src/main.rs, src/magnet.rs and src/torrent.rs. Where debug and trace messages of the tasks of trackers, peers and the DHT stand among them is left out, as are batches that crash (C69)."),
  c("C79","proved","level_shown target_own shown_levels shown_mono off_shown default_shown stderr_read program_lines program_stderr main_log_faithful","fern, chrono, anstyle and anstream are modelled from their documentation. program_lines assumes of the texts of errors of other crates what C72 does (EnvShown)."),
  c("C80","partial","channel_buffer_small next_reaches visits_modest metadata_small handshake_buffer_small_partial handshake_left_small packet2_unbounded","false until packet 2 of the encryption handshake has been taken: packet2_unbounded (everything that arrives before the timeout is kept). How many bytes one read delivers is a parameter. The memory of decoded messages is not counted."),
  c("C81","proved","no_amplification wire_no_amplification visits_modest","wire_no_amplification: the digest is any function to 20 bytes, the paddings have at most 512 bytes (src/peer/msepe.rs:100-101). Retransmission and headers of TCP are not counted; a write that fails half-way is not either."),
  c("C82","proved","dht_packet_small dht_lookup_queries dht_replies_arrived dht_traffic dht_kept","Headers of UDP are not counted. A lookup is named by its number; the bytes of a reply are those of the packet."),
  c("C83","proved","udp_packet_size udp_traffic udp_traffic_short","Headers of UDP are not counted. The time T is that between the first and the last event counted; timers may fire late."),
  c("C84","proved","lookup_time answer_time answer_time_nodes","That timers are looked at when due is a hypothesis (`NoneOverdue`); the time spent in sending and computing is part of it. The time from the request to the start of the lookup (resolving the bootstrap nodes, and the channel) is not counted."),
  c("C85","proved","ask_traffic ask_datagram_size ask_requests_few",""),
  c("C86","proved","cut_short run_on crash_leaves crash_leaves_torrents","Files are taken to be the same only if their paths have the same text; what the file system itself loses in a crash of the machine is not modelled: the bytes written are there."),
  c("C87","proved","close_told spawn_told close_once shutdown_told lengths_told tryRecv_told tryRecv_done tryRecv_rest tryRecv_closed_empty","The documentation of try_recv promises Done as soon as the nursery is closed and the stream empty; tryRecv_closed_empty shows that it gives Empty while a job is running. A call of shutdown is two events, as in the code."),
  c("C88","proved","program_peer_encryption program_get_encryption program_peer_finds",""),
  c("C89","proved","peer_error_told tracker_error_told tracker_line_told link_error_told links_error_told download_error_told peer_line_told reply_error_told expected_told asked_told",""),
  c("C90","proved","handshake_drawn handshake_sizes handshake_chances identity_drawn nodeId_drawn","Uniformity and independence of the generator's own answers are assumed (crate rand)."),
  c("C91","proved","lookup_finds network_found eight_mislead false_name_misleads","The conditions are part of the property; that neither can be dropped is proved by concrete runs."),
  c("C92","proved","dht_created datagrams_delivered datagram_waits send_disabled without_ipv6 with_ipv6 unasked_ipv6 socket_line_told","That replies list IPv6 nodes only when asked is part of the last clause; that it is needed is proved by a concrete run."),
  c("C93","proved","lookups_conserved create_retried unresolved_fails down_for_ever",""),
  c("C94","proved","encrypted_takes_time never_encrypted no_fallback_in_time silent_falls_back responder_in_time",""),
  c("C95","proved","dht_log_queries dht_log_ends dht_log_failures dht_log_results dht_log_packets dht_log_ignored dht_log_balanced dht_failure_told",""),
  c("C96","proved","tracker_gives_few dht_gives_few get_contacts_few get_contacts_bounded tracker_unlimited",""),
  c("C97","proved","log_udp_right log_connected log_begins log_peers log_stop log_warning log_socket log_others log_exists log_socket_early",""),
  c("C98","proved","peerRun_log visit_log visit_last secure_log selected_iff peerRun_received peerRun_sending peerRun_got peerRun_failed packet2_unreceived",""),
  c("C99","proved","fleet_alone fleet_unbegun fleet_nothing fleet_batch fleet_together fleet_swap fleet_swap_over fleet_asks_one fleet_asks fleet_asks_more fleet_progress fleet_terminates fleet_get_alone fleet_get_batch",""),
  c("C100","proved","closing_alone closing_told closing_patient closing_untold closing_ready closing_exits closing_hangs closing_left_behind",""),
  c("C101","proved","download_in_time download_reaches download_at_once batch_in_time batch_reaches download_bound_reached batch_bound_reached","What the program itself does is taken to need no time."),
  c("C102","proved","lookups_alike lookup_over lookups_together lookup_served event_one_lookup",""),
  c("C103","proved","aftermath_peers aftermath_trackers aftermath_bounded aftermath_handed_over aftermath_once aftermath_lets_go aftermath_ends trackers_patience",""),
  c("C104","proved","told_trackers told_dht told_peers name_told_nobody told_nothing net_fleet_get","what reqwest does on its own account (redirects that a tracker asks for, proxies set in the environment) and name lookups are not modelled: a tracker that redirects can make the HTTP client tell another host"),
  c("C105","proved","same_torrent same_torrents",""),
  c("C106","proved","silence_progress silence_terminates silence_ends",""),
  c("C107","proved","stallers_progress stallers_found stallers_reach stallers_enough",""),
  c("C108","proved","stuck_links_progress stuck_links_reach stuck_links_enough",""),
  c("C109","proved","jobs_same_result jobs_same_end jobs_same_exit",""),
  c("C110","proved","lossy_run lossy_goes_on lossy_ends lossy_result one_lost two_lost duplicate_fatal slow_fatal",""),
]
