{
 "claims": [
  {
   "property": "C01",
   "status": "proved",
   "theorems": [
    "Demag.Props.infoHash_fromStr_spec",
    "Demag.Props.infoHash_display_spec",
    "Demag.Props.infoHash_roundtrip",
    "Demag.Props.infoHash_case_insensitive",
    "Demag.Props.infoHash_display_injective",
    "Demag.Props.infoHash_accepted_length",
    "Demag.Props.infoHash_fromStr_error",
    "Demag.Props.infoHash_base32_error"
   ],
   "note": "parsing and printing characterised against hexadecimal and base32 written out as numerals"
  },
  {
   "property": "C02",
   "status": "proved",
   "theorems": [
    "Demag.Props.toCompact_spec",
    "Demag.Props.sockFromCompact_spec",
    "Demag.Props.compact_roundtrip",
    "Demag.Props.compact_canonical",
    "Demag.Props.sockFromCompact_error",
    "Demag.Props.v4s_spec",
    "Demag.Props.v6s_spec",
    "Demag.Props.v4s_accepts_iff",
    "Demag.Props.v6s_accepts_iff",
    "Demag.Props.v4s_roundtrip",
    "Demag.Props.v6s_roundtrip",
    "Demag.Props.node4_spec",
    "Demag.Props.node6_spec",
    "Demag.Props.node4s_spec",
    "Demag.Props.node6s_spec",
    "Demag.Props.node4s_accepts_iff",
    "Demag.Props.node6s_accepts_iff",
    "Demag.Props.node4_address",
    "Demag.Props.node6_address"
   ],
   "note": ""
  },
  {
   "property": "C03",
   "status": "proved",
   "theorems": [
    "Demag.Props.coreMessage_encode_spec",
    "Demag.Props.coreMessage_roundtrip",
    "Demag.Props.coreMessage_decode_sound",
    "Demag.Props.coreMessage_decode_spec",
    "Demag.Props.coreMessage_decode_error",
    "Demag.Props.coreMessage_decode_empty",
    "Demag.Props.coreMessage_decode_injective"
   ],
   "note": ""
  },
  {
   "property": "C04",
   "status": "proved",
   "theorems": [
    "Demag.Props.handshake_encode_spec",
    "Demag.Props.handshake_decode_spec",
    "Demag.Props.handshake_roundtrip",
    "Demag.Props.handshake_accepts_iff"
   ],
   "note": ""
  },
  {
   "property": "C05",
   "status": "proved",
   "theorems": [
    "Demag.Props.fromIter_has",
    "Demag.Props.fromIter_bits",
    "Demag.Props.and_has",
    "Demag.Props.has_reserved",
    "Demag.Props.bit_injective",
    "Demag.Props.shown_spec"
   ],
   "note": ""
  },
  {
   "property": "C06",
   "status": "proved",
   "theorems": [
    "Demag.Props.registry_bijective",
    "Demag.Props.registry_injective",
    "Demag.Props.register_ok",
    "Demag.Props.register_error",
    "Demag.Props.fromM_spec",
    "Demag.Props.toM_spec",
    "Demag.Props.m_roundtrip"
   ],
   "note": "for any type of extensions, of which the code has one"
  },
  {
   "property": "C08",
   "status": "proved",
   "theorems": [
    "Demag.Props.metadata_decode_spec",
    "Demag.Props.metadata_encode_spec",
    "Demag.Props.metadata_roundtrip",
    "Demag.Props.metadata_encode_injective",
    "Demag.Props.metadata_trailing",
    "Demag.Props.metadata_missing",
    "Demag.Props.message_roundtrip",
    "Demag.Props.message_encode_error"
   ],
   "note": ""
  },
  {
   "property": "C09",
   "status": "proved",
   "theorems": [
    "Demag.Props.extendedHandshake_decode_spec",
    "Demag.Props.extendedHandshake_encode_spec",
    "Demag.Props.extendedHandshake_roundtrip",
    "Demag.Props.extendedHandshake_decode_sorted",
    "Demag.Props.message_roundtrip"
   ],
   "note": ""
  },
  {
   "property": "C10",
   "status": "proved",
   "theorems": [
    "Demag.Props.decodeBencode_spec",
    "Demag.Props.bencode_roundtrip",
    "Demag.Props.benc_injective",
    "Demag.Props.benc_prefix_free",
    "Demag.Props.decodeBencode_error",
    "Demag.Props.emit_spec"
   ],
   "note": "bendy's parser is modelled from its documentation"
  },
  {
   "property": "C45",
   "status": "proved",
   "theorems": [
    "Demag.Props.peerId_generate_spec",
    "Demag.Props.peerId_generate_all",
    "Demag.Props.peerId_client_prefix"
   ],
   "note": ""
  },
  {
   "property": "C52",
   "status": "proved",
   "theorems": [
    "Demag.Props.checkBencodeDict_spec",
    "Demag.Props.checkBencodeDict_errors"
   ],
   "note": ""
  },
  {
   "property": "C53",
   "status": "proved",
   "theorems": [
    "Demag.Props.tryGetUint_spec",
    "Demag.Props.tryGetUint_fails_iff",
    "Demag.Props.put_then_get",
    "Demag.Props.tryGetBytes_spec",
    "Demag.Props.tryGetAll_spec",
    "Demag.Props.tryGetAll_u32",
    "Demag.Props.eof_spec"
   ],
   "note": ""
  },
  {
   "property": "C11",
   "status": "proved",
   "theorems": [
    "Demag.Props.pieces_cover",
    "Demag.Props.builder_new_spec",
    "Demag.Props.push_accepts_iff",
    "Demag.Props.next_piece_spec",
    "Demag.Props.push_error_spec"
   ],
   "note": ""
  },
  {
   "property": "C12",
   "status": "proved",
   "theorems": [
    "Demag.Props.build_spec",
    "Demag.Props.build_error_spec",
    "Demag.Props.build_sound_any",
    "Demag.Props.push_error_must_stop",
    "Demag.Props.name_spec"
   ],
   "note": "SHA-1 is an arbitrary function"
  },
  {
   "property": "C13",
   "status": "proved",
   "theorems": [
    "Demag.Props.torrentFile_dict",
    "Demag.Props.torrentFile_canonical",
    "Demag.Props.torrentFile_reads",
    "Demag.Props.torrentFile_verbatim",
    "Demag.Props.creationDate_spec",
    "Demag.Props.save_spec",
    "Demag.Props.torrentFile_too_deep",
    "Demag.Props.deep_info_accepted",
    "Demag.Props.torrent_node_text",
    "Demag.Props.torrent_nodes_injective"
   ],
   "note": "the written file is exactly the intended dictionary; a reader with the nesting limit of bendy reads it back if the metadata is nested at most 2047 levels, and this bound is sharp"
  },
  {
   "property": "C15",
   "status": "proved",
   "theorems": [
    "Demag.Props.template_accepts_iff",
    "Demag.Props.template_error_iff",
    "Demag.Props.malformed_unique",
    "Demag.Props.template_error_says",
    "Demag.Props.format_spec",
    "Demag.Props.escape_reads",
    "Demag.Props.reads_unique"
   ],
   "note": ""
  },
  {
   "property": "C16",
   "status": "proved",
   "theorems": [
    "Demag.Props.sanitize_spec",
    "Demag.Props.sanitize_clean",
    "Demag.Props.sanitize_idem"
   ],
   "note": ""
  },
  {
   "property": "C17",
   "status": "partial",
   "theorems": [
    "Demag.Props.save_components",
    "Demag.Props.save_component_partial",
    "Demag.Props.save_component_iff",
    "Demag.Props.default_save",
    "Demag.Props.save_dotdot",
    "Demag.Props.save_stdout",
    "Demag.Props.save_spec"
   ],
   "note": "names never change the number of components; a component consisting of the name alone can be `..` and a bare {name} can be `-`: proved as counterexamples, with the claim proved for every component in which the template fixes a character or the hash; save_component_iff says exactly which components can become special"
  },
  {
   "property": "C07",
   "status": "proved",
   "theorems": [
    "Demag.Props.recvN_spec",
    "Demag.Props.recvN_independent",
    "Demag.Props.frameEncode_spec",
    "Demag.Props.framing_roundtrip",
    "Demag.Props.frames_exist"
   ],
   "note": "tokio-util's codec is modelled from its documentation and source; the reads may divide the bytes in any way"
  },
  {
   "property": "C14",
   "status": "proved",
   "theorems": [
    "Demag.Props.session_spec",
    "Demag.Props.session_refused",
    "Demag.Props.requests_in_order",
    "Demag.Props.requests_answered",
    "Demag.Props.session_success",
    "Demag.Props.session_no_panic",
    "Demag.Props.session_complete",
    "Demag.Props.visit_complete",
    "Demag.Props.session_exact",
    "Demag.Props.talks_exact",
    "Demag.Props.talks_exists",
    "Demag.Props.task_ok_iff"
   ],
   "note": "every conversation is one of those listed in Spec/Session.lean, and conversely a conversation that the peer and the network allow is the one that takes place (session_exact); task_ok_iff says exactly when a peer gives the metadata"
  },
  {
   "property": "C51",
   "status": "proved",
   "theorems": [
    "Demag.Props.connect_spec",
    "Demag.Props.run_spec",
    "Demag.Props.requests_after_greetings",
    "Demag.Props.visit_sent",
    "Demag.Props.haveNone_only",
    "Demag.Props.haveNone_always",
    "Demag.Props.run_success",
    "Demag.Props.run_panic",
    "Demag.Props.run_no_panic",
    "Demag.Props.connect_complete",
    "Demag.Props.visit_complete"
   ],
   "note": "every outcome of connecting is one of those listed in Spec/Connect.lean"
  },
  {
   "property": "C31",
   "status": "proved",
   "theorems": [
    "Demag.Props.crypto_policy",
    "Demag.Props.run_spec",
    "Demag.Props.always_encrypts",
    "Demag.Props.never_encrypts",
    "Demag.Props.required_encrypts",
    "Demag.Props.fallback_only",
    "Demag.Props.attempts_bounded",
    "Demag.Props.query_peer_mode"
   ],
   "note": "the outcome of the encryption handshake is an input of the model"
  },
  {
   "property": "C21",
   "status": "proved",
   "theorems": [
    "Demag.Props.udpConnectRequest_spec",
    "Demag.Props.udpAnnounceRequest_spec"
   ],
   "note": ""
  },
  {
   "property": "C22",
   "status": "proved",
   "theorems": [
    "Demag.Props.udpConnectResponse_spec",
    "Demag.Props.udpAnnounceResponse_spec",
    "Demag.Props.udpResponse_failure",
    "Demag.Props.udpResponse_ok",
    "Demag.Props.udpConnectResponse_no_failure",
    "Demag.Props.udpAnnounceResponse_no_failure",
    "Demag.Props.udpConnect_ok",
    "Demag.Props.udpAnnounce_accepted_iff",
    "Demag.Props.udpAnnounce_layout_functional"
   ],
   "note": ""
  },
  {
   "property": "C23",
   "status": "partial",
   "theorems": [
    "Demag.Props.udp_peers_answer_request_partial",
    "Demag.Props.udp_connection_answers_request_partial",
    "Demag.Props.udp_transmits",
    "Demag.Props.udp_error_causes",
    "Demag.Props.udp_foreign_error_accepted"
   ],
   "note": "true of peers and connection ids; false of error packets, whose transaction id is not compared: udp_foreign_error_accepted is the counterexample"
  },
  {
   "property": "C24",
   "status": "partial",
   "theorems": [
    "Demag.Props.udp_request_fresh",
    "Demag.Props.udp_announce_fresh_partial",
    "Demag.Props.udp_stale_id_possible"
   ],
   "note": "every announce request is composed with a connection id at most 60 s old; a retransmission is too if timers fire when due; without that udp_stale_id_possible is a counterexample"
  },
  {
   "property": "C25",
   "status": "proved",
   "theorems": [
    "Demag.Props.udp_backoff",
    "Demag.Props.udp_deadline",
    "Demag.Props.udp_resends",
    "Demag.Props.udp_no_early_timeout",
    "Demag.Props.backoff_bounds",
    "Demag.Props.udp_no_overflow"
   ],
   "note": ""
  },
  {
   "property": "C48",
   "status": "proved",
   "theorems": [
    "Demag.Props.udpUrl_split",
    "Demag.Props.udpUrl_ofUrl",
    "Demag.Props.udpUrl_roundtrip",
    "Demag.Props.udpUrl_brackets",
    "Demag.Props.tracker_parse",
    "Demag.Props.tracker_parse_error",
    "Demag.Props.udpUrl_ok",
    "Demag.Props.tracker_shows",
    "Demag.Props.tracker_roundTrip",
    "Demag.Props.url_iff",
    "Demag.Props.url_special_iff",
    "Demag.Props.udp_tracker_iff",
    "Demag.Props.http_tracker_iff",
    "Demag.Props.trackers_named"
   ],
   "note": "UrlOk is met by every UDP URL that the model of Url::parse produces (udpUrl_ok); udp_tracker_iff and http_tracker_iff say which texts are trackers, down to characters; what IDNA makes of names that are not plain ASCII is a parameter"
  },
  {
   "property": "C26",
   "status": "proved",
   "theorems": [
    "Demag.Props.announceQuery_decodes",
    "Demag.Props.query_text",
    "Demag.Props.announceUrl_rest",
    "Demag.Props.announceQuery_ascii"
   ],
   "note": "form_urlencoded's serialiser is modelled; the decoder in Spec/TrackerHttp.lean is independent of it"
  },
  {
   "property": "C27",
   "status": "proved",
   "theorems": [
    "Demag.Props.httpResult_ok",
    "Demag.Props.httpResult_failure",
    "Demag.Props.httpResult_transport",
    "Demag.Props.httpPeer_text"
   ],
   "note": "lossy UTF-8 conversion and IP text parsing are parameters in httpResult_ok, instantiated by lossy_spec (C44) and httpPeer_text; the HTTP exchange is an input"
  },
  {
   "property": "C32",
   "status": "proved",
   "theorems": [
    "Demag.Props.trackerCrypto_policy",
    "Demag.Props.trackerCrypto_options",
    "Demag.Props.crypto_params",
    "Demag.Props.announceQuery_decodes"
   ],
   "note": ""
  },
  {
   "property": "C49",
   "status": "proved",
   "theorems": [
    "Demag.Props.stop_only_after_start",
    "Demag.Props.stop_iff_start",
    "Demag.Props.stop_pending",
    "Demag.Props.result_of_start",
    "Demag.Props.result_and_warning",
    "Demag.Props.announcement_fields"
   ],
   "note": "aborting the whole task from outside is the event `dropped`"
  },
  {
   "property": "C18",
   "status": "proved",
   "theorems": [
    "Demag.Props.magnet_ok",
    "Demag.Props.magnet_iff",
    "Demag.Props.magnet_order",
    "Demag.Props.magnet_error",
    "Demag.Props.parseXt_spec",
    "Demag.Props.parseXt_error",
    "Demag.Props.queryPairs_spec"
   ],
   "note": "magnet_iff says which texts are magnet links, down to characters; in the others URL parsing is a parameter; lossy UTF-8 reading is one here (C71 has it); form_urlencoded's parser is modelled on bytes and proved equal to the character level specification"
  },
  {
   "property": "C19",
   "status": "proved",
   "theorems": [
    "Demag.Props.magnetsFile_ok",
    "Demag.Props.magnetsFile_error",
    "Demag.Props.fileLines_spec",
    "Demag.Props.trim_spec"
   ],
   "note": "tokio's line reader and str::trim are modelled"
  },
  {
   "property": "C28",
   "status": "proved",
   "theorems": [
    "Demag.Props.unique_spec",
    "Demag.Props.unique_complete",
    "Demag.Props.firsts_spec"
   ],
   "note": "the stream combinator unique_by is modelled poll by poll"
  },
  {
   "property": "C29",
   "status": "proved",
   "theorems": [
    "Demag.Props.nursery_concurrency",
    "Demag.Props.nursery_fifo"
   ],
   "note": "async_channel, tokio mpsc and JoinSet are modelled as queues and worker states; one event per point at which a worker may be suspended"
  },
  {
   "property": "C30",
   "status": "proved",
   "theorems": [
    "Demag.Props.nursery_at_most_once",
    "Demag.Props.nursery_end",
    "Demag.Props.nursery_shutdown",
    "Demag.Props.nursery_terminates",
    "Demag.Props.nursery_progress"
   ],
   "note": "that jobs end and that the stream is polled is assumed for progress, not for safety"
  },
  {
   "property": "C50",
   "status": "proved",
   "theorems": [
    "Demag.Props.shutdown_returns",
    "Demag.Props.shutdown_grace",
    "Demag.Props.shutdown_cancels",
    "Demag.Props.shutdown_progress"
   ],
   "note": "TaskTracker, CancellationToken and tokio's timeout are modelled; that a cancelled task ends is the task's own matter"
  },
  {
   "property": "C46",
   "status": "proved",
   "theorems": [
    "Demag.Props.resolve_file",
    "Demag.Props.resolve_nothing",
    "Demag.Props.resolve_dht_error",
    "Demag.Props.tracker_task_ends",
    "Demag.Props.resolve_contacts",
    "Demag.Props.resolve_progress",
    "Demag.Props.resolve_terminates",
    "Demag.Props.resolve_panicked"
   ],
   "note": "tracker, peer and DHT tasks are inputs (their own theorems are C25-C27, C21 ff.); what happens after the result is there is not modelled"
  },
  {
   "property": "C20",
   "status": "proved",
   "theorems": [
    "Demag.Props.batch_exit",
    "Demag.Props.batch_progress",
    "Demag.Props.batch_terminates",
    "Demag.Props.get_exit",
    "Demag.Props.query_exit"
   ],
   "note": "logging and printing are not modelled except for the list of peers printed"
  },
  {
   "property": "C43",
   "status": "proved",
   "theorems": [
    "Demag.Props.local_port_constant",
    "Demag.Props.local_port_range",
    "Demag.Props.local_port_int",
    "Demag.Props.local_port_generate"
   ],
   "note": "the draw of crate rand is a parameter that lies in the range"
  },
  {
   "property": "C44",
   "status": "proved",
   "theorems": [
    "Demag.Props.json_string",
    "Demag.Props.json_string_ascii",
    "Demag.Props.json_peer",
    "Demag.Props.json_peer_ascii",
    "Demag.Props.json_host",
    "Demag.Props.json_address",
    "Demag.Props.lossy_spec",
    "Demag.Props.lossy_unique",
    "Demag.Props.lossy_utf8"
   ],
   "note": "against an independent JSON parser (RFC 8259 without arrays and fractions); std's utf8_chunks, UTF-16 encoding and IP address printing are modelled"
  },
  {
   "property": "C54",
   "status": "proved",
   "theorems": [
    "Demag.Props.inet_parse",
    "Demag.Props.inet_resolve",
    "Demag.Props.inet_resolve_family",
    "Demag.Props.node_text",
    "Demag.Props.node_colon"
   ],
   "note": "the name lookup is a parameter; node_text says which texts are addresses, down to characters (hosts: C74)"
  },
  {
   "property": "C55",
   "status": "proved",
   "theorems": [
    "Demag.Props.comma_list",
    "Demag.Props.comma_list_inj",
    "Demag.Props.error_chain"
   ],
   "note": "the chain of sources of an error is finite"
  },
  {
   "property": "C42",
   "status": "proved",
   "theorems": [
    "Demag.Props.query_encode",
    "Demag.Props.prescan_spec",
    "Demag.Props.response_ok",
    "Demag.Props.response_rpc"
   ],
   "note": "A query is the canonical bencoding of exactly its fields. A packet scans / decodes to a response / to an RPC error exactly when it is the canonical bencoding (depth at most 2048) of a dictionary whose fields denote it; everything else is rejected. The scan ignores bytes after the first object."
  },
  {
   "property": "C36",
   "status": "proved",
   "theorems": [
    "Demag.Props.distance_value",
    "Demag.Props.distance_order",
    "Demag.Props.distance_zero",
    "Demag.Props.distance_symm",
    "Demag.Props.distance_triangle",
    "Demag.Props.distance_injective",
    "Demag.Props.distance_total"
   ],
   "note": "IDs and infohashes are 20 bytes; the order is that of the number the bytes denote"
  },
  {
   "property": "C37",
   "status": "proved",
   "theorems": [
    "Demag.Props.closest_unqueried_spec",
    "Demag.Props.closest_responsive_spec",
    "Demag.Props.ranking_unique"
   ],
   "note": "over every history of additions, queries and marks"
  },
  {
   "property": "C38",
   "status": "partial",
   "theorems": [
    "Demag.Props.lookup_once_partial",
    "Demag.Props.lookup_once_false"
   ],
   "note": "An address is queried at most once more than it occurs among the bootstrap addresses, and that only if a response lists it, any other address at most once; so no address is queried twice if the bootstrap addresses differ and no response lists one of them. Full statement is false of the code: a bootstrap address that a response lists is queried again (witness run proved)."
  },
  {
   "property": "C39",
   "status": "proved",
   "theorems": [
    "Demag.Props.requests_conserved",
    "Demag.Props.lookup_requested",
    "Demag.Props.lookup_answered",
    "Demag.Props.answer_spec",
    "Demag.Props.lookup_bounded",
    "Demag.Props.lookup_progress",
    "Demag.Props.internal_bounded",
    "Demag.Props.no_reuse",
    "Demag.Props.query_sent_iff"
   ],
   "note": "No bound on the run. Progress, and that a lookup with outstanding queries waits, need that no query carries the transaction ID of an outstanding query to the same address; no_reuse: so it is in the first 2^32 queries. Timers are assumed to run out."
  },
  {
   "property": "C40",
   "status": "proved",
   "theorems": [
    "Demag.Props.mismatched_ignored",
    "Demag.Props.consumed_once"
   ],
   "note": "No bound on the run; with a lookup, address and transaction ID given, there are never more ends than queries sent."
  },
  {
   "property": "C41",
   "status": "proved",
   "theorems": [
    "Demag.Props.transaction_ids"
   ],
   "note": "No bound on the run; any 2^32 consecutive IDs are distinct."
  },
  {
   "property": "C47",
   "status": "partial",
   "theorems": [
    "Demag.Props.closest_responded_partial",
    "Demag.Props.closest_responded_false"
   ],
   "note": "Every reported address was listed under a node ID under which some address that answered was listed; the address itself answered if no two addresses were listed under one ID. Full statement is false of the code: with two addresses under one ID the wrong one is marked (witness run proved)."
  },
  {
   "property": "C56",
   "status": "proved",
   "theorems": [
    "Demag.Props.query_fields"
   ],
   "note": ""
  },
  {
   "property": "C33",
   "status": "proved",
   "theorems": [
    "Demag.Props.input_cut",
    "Demag.Props.reply_outcome",
    "Demag.Props.packet2_length",
    "Demag.Props.segmentation",
    "Demag.Props.handshake_ends",
    "Demag.Props.plain_arrives",
    "Demag.Props.encrypted_arrives",
    "Demag.Props.methodSet_offers"
   ],
   "note": "Every packet is assumed to be sent successfully (a failure ends the handshake with the error); empty reads are a disconnect. Accepted replies, rejected replies with their reason, and incomplete ones are each characterised exactly."
  },
  {
   "property": "C34",
   "status": "proved",
   "theorems": [
    "Demag.Props.sent_exactly",
    "Demag.Props.key_agreement",
    "Demag.Props.handshake_completes"
   ],
   "note": "For any 20-byte digest function; RC4 is modelled in full. A responder following the protocol is written out in the statement."
  },
  {
   "property": "C35",
   "status": "proved",
   "theorems": [
    "Demag.Props.sent_is_written",
    "Demag.Props.flushed_is_written",
    "Demag.Props.read_is_sent",
    "Demag.Props.end_to_end",
    "Demag.Props.stream_progress"
   ],
   "note": "Over every sequence of writes, flushes and reads and every partial result of the network. Closing the connection without a flush loses what waits in the buffer."
  },
  {
   "property": "C57",
   "status": "proved",
   "theorems": [
    "Demag.Props.ipText_is",
    "Demag.Props.ipFromStr_iff",
    "Demag.Props.ip_roundTrip",
    "Demag.Props.ipText_injective",
    "Demag.Props.sockFromStr_iff",
    "Demag.Props.sockText_is",
    "Demag.Props.peer_roundTrip",
    "Demag.Props.sockText_injective",
    "Demag.Props.peer_fromStr_iff",
    "Demag.Props.ipv6Text_recommended"
   ],
   "note": "std's printing and parsing of addresses is modelled; a scope ID in the argument is accepted but not kept by the model's addresses"
  },
  {
   "property": "C58",
   "status": "proved",
   "theorems": [
    "Demag.Props.download_writes",
    "Demag.Props.download_authentic",
    "Demag.Props.download_finds",
    "Demag.Props.download_panic",
    "Demag.Props.delivers_ok",
    "Demag.Props.resolve_panicked"
   ],
   "note": "SHA-1 is an arbitrary function; the answers of trackers and the DHT are arbitrary; file system errors are outcomes of the effects"
  },
  {
   "property": "C59",
   "status": "partial",
   "theorems": [
    "Demag.Props.download_hangs",
    "Demag.Props.task_ends_partial",
    "Demag.Props.download_ends_partial",
    "Demag.Props.download_terminates",
    "Demag.Props.silent_hangs",
    "Demag.Props.stall_hangs",
    "Demag.Props.task_hangs_iff",
    "Demag.Props.download_goes_on_partial"
   ],
   "note": "false of the code: download_hangs; the partial theorems assume that no peer stalls after having agreed to talk; task_hangs_iff says exactly which peers keep us waiting for ever"
  },
  {
   "property": "C60",
   "status": "proved",
   "theorems": [
    "Demag.Props.config_settings",
    "Demag.Props.dht_default",
    "Demag.Props.default_nodes",
    "Demag.Props.config_nodes",
    "Demag.Props.config_usable",
    "Demag.Props.config_unknown"
   ],
   "note": "From the value tree that the crate toml makes of the file; dates, and preferences written as tables, are left out. The meaning of the keys is that of README.md."
  },
  {
   "property": "C61",
   "status": "proved",
   "theorems": [
    "Demag.Props.config_choice",
    "Demag.Props.program_steps",
    "Demag.Props.program_succeeds"
   ],
   "note": "The option parser is C76; a command is any function of the configuration."
  },
  {
   "property": "C62",
   "status": "proved",
   "theorems": [
    "Demag.Props.one_dht_actor",
    "Demag.Props.dht_handle_progress"
   ],
   "note": "tokio's mutex is taken to be held by at most one task; a dead actor stays cached, so later lookups fail (C39)."
  },
  {
   "property": "C63",
   "status": "proved",
   "theorems": [
    "Demag.Props.files_separate",
    "Demag.Props.files_finish",
    "Demag.Props.files_agree_iff",
    "Demag.Props.files_mixed"
   ],
   "note": "For torrent files that go to different places; files_mixed is the counterexample for the same place, and files_agree_iff says exactly which files are certain to be whole at the end. The semantics of std::fs::write is part of the model."
  },
  {
   "property": "C64",
   "status": "partial",
   "theorems": [
    "Demag.Props.batch_no_crash",
    "Demag.Props.batch_saves",
    "Demag.Props.hash_separates",
    "Demag.Props.batch_on_disk_partial",
    "Demag.Props.batch_on_disk_iff_partial",
    "Demag.Props.batch_overwrites"
   ],
   "note": "false of templates without {hash}: batch_overwrites; batch_on_disk_partial is about templates with {hash} and magnet links with different info hashes; batch_on_disk_iff_partial says for any template exactly which torrent files are certain to be on the disk, whole"
  },
  {
   "property": "C65",
   "status": "proved",
   "theorems": [
    "Demag.Props.wire_hidden",
    "Demag.Props.crypto_outcome",
    "Demag.Props.encrypted_as_plain",
    "Demag.Props.encrypted_run"
   ],
   "note": "The digest is any function to 20 bytes; nothing is claimed about the strength of RC4 or Diffie-Hellman. A peer following the protocol is written out in Spec/SecureLink.lean."
  },
  {
   "property": "C66",
   "status": "proved",
   "theorems": [
    "Demag.Props.ask_peers",
    "Demag.Props.ask_datagrams",
    "Demag.Props.ask_requests",
    "Demag.Props.ask_once",
    "Demag.Props.ask_answers_udp",
    "Demag.Props.ask_answers_http",
    "Demag.Props.ask_fails",
    "Demag.Props.ask_reports",
    "Demag.Props.ask_family"
   ],
   "note": "That a UDP packet comes from the address the socket is connected to is the kernel's doing (an event of the model); HTTP itself (reqwest) is an outcome."
  },
  {
   "property": "C67",
   "status": "proved",
   "theorems": [
    "Demag.Props.printed_addresses",
    "Demag.Props.printed_json",
    "Demag.Props.printed_read_back",
    "Demag.Props.printed_injective",
    "Demag.Props.print_broken",
    "Demag.Props.query_tracker_fails",
    "Demag.Props.query_tracker_succeeds",
    "Demag.Props.query_tracker_udp",
    "Demag.Props.query_tracker_http",
    "Demag.Props.query_dht",
    "Demag.Props.query_dht_run"
   ],
   "note": "The order in which query-dht prints is that of a hash set: any order."
  },
  {
   "property": "C68",
   "status": "proved",
   "theorems": [
    "Demag.Props.query_peer_writes",
    "Demag.Props.query_peer_finds",
    "Demag.Props.query_peer_flags"
   ],
   "note": "What a failed write leaves behind is the subject of C63. A peer that stalls is waited for without end (C59), which is no end of the command here."
  },
  {
   "property": "C69",
   "status": "partial",
   "theorems": [
    "Demag.Props.download_no_panic_partial",
    "Demag.Props.batch_no_crash_partial",
    "Demag.Props.query_peer_crash",
    "Demag.Props.overflow_iff",
    "Demag.Props.timeout_crashes"
   ],
   "note": "false of excessive values of dh-exchange-timeout: timeout_crashes; the partial theorems are about every other accepted configuration"
  },
  {
   "property": "C70",
   "status": "proved",
   "theorems": [
    "Demag.Props.get_contacts",
    "Demag.Props.get_finds",
    "Demag.Props.get_fails",
    "Demag.Props.get_writes",
    "Demag.Props.get_announces"
   ],
   "note": "That get comes to an end is not claimed here: C59 (a peer may stall it). The tasks that ask trackers do not panic (Model/TrackerFlow.lean has no panic); the network towards peers is a parameter, as in C58."
  },
  {
   "property": "C71",
   "status": "proved",
   "theorems": [
    "Demag.Props.magnet_text",
    "Demag.Props.magnet_text_needed",
    "Demag.Props.magnet_written",
    "Demag.Props.tracker_reads_plain",
    "Demag.Props.tracker_plain",
    "Demag.Props.tracker_roundTrip",
    "Demag.Props.tracker_shows",
    "Demag.Props.udpUrl_ok"
   ],
   "note": "Url::parse is modelled after the URL Standard for schemes that are not special; http and https trackers are C74. Links of the form magnet://authority?... are covered by magnet_text_needed only."
  },
  {
   "property": "C72",
   "status": "proved",
   "theorems": [
    "Demag.Props.log_shown",
    "Demag.Props.log_no_control",
    "Demag.Props.quoted_read",
    "Demag.Props.handshake_log_faithful",
    "Demag.Props.peer_log_clean",
    "Demag.Props.reply_log_clean",
    "Demag.Props.saving_no_newline",
    "Demag.Props.saving_control"
   ],
   "note": "Which characters are printable is std's (parameter plain). That the texts of errors of the system and of bendy, url, data-encoding and reqwest can be shown is assumed (EnvShown). saving_control shows that the path in the log is not free of control characters."
  },
  {
   "property": "C73",
   "status": "proved",
   "theorems": [
    "Demag.Props.batch_text_success",
    "Demag.Props.batch_text_failure",
    "Demag.Props.batch_text_crash",
    "Demag.Props.batch_text_finds",
    "Demag.Props.batchLinks_iff"
   ],
   "note": "Composition of C18, C19, C20, C61 and C70. What different downloads do to one file is C63 and C64; that downloads end is not claimed (C59)."
  },
  {
   "property": "C74",
   "status": "proved",
   "theorems": [
    "Demag.Props.hostParse_iff",
    "Demag.Props.http_tracker_iff",
    "Demag.Props.urlSpecial_iff",
    "Demag.Props.http_plain",
    "Demag.Props.plain_visible",
    "Demag.Props.plain_reads",
    "Demag.Props.http_roundTrip",
    "Demag.Props.announce_reads"
   ],
   "note": "Url::parse and Host::parse are modelled after the URL Standard (crate url 2.5). What IDNA (crate idna) makes of names that are not plain ASCII is a parameter; http_plain and http_roundTrip assume of it that results are ASCII in lower case without forbidden characters and are results of themselves (IdnaOk)."
  },
  {
   "property": "C75",
   "status": "proved",
   "theorems": [
    "Demag.Props.message_log_faithful",
    "Demag.Props.bt_handshake_log_faithful",
    "Demag.Props.event_log_faithful",
    "Demag.Props.conversation_log_faithful",
    "Demag.Props.node_log_faithful",
    "Demag.Props.reply_log_faithful"
   ],
   "note": "A handshake we send is logged without its contents. Lines are compared with the same texts of the surroundings (LogEnv)."
  },
  {
   "property": "C76",
   "status": "proved",
   "theorems": [
    "Demag.Props.command_line_iff",
    "Demag.Props.command_line_spelled",
    "Demag.Props.command_line_order",
    "Demag.Props.command_line_expressible",
    "Demag.Props.query_peer_given",
    "Demag.Props.query_tracker_given"
   ],
   "note": "clap's rules for the declarations used here are modelled from its documentation; what a refused command line prints, and --help and --version, are not distinguished (none). Arguments are Unicode texts."
  },
  {
   "property": "C77",
   "status": "proved",
   "theorems": [
    "Demag.Props.program_writes",
    "Demag.Props.program_success",
    "Demag.Props.program_quiet",
    "Demag.Props.program_config",
    "Demag.Props.program_get_finds",
    "Demag.Props.readers_spec"
   ],
   "note": "Composition of C76, C61, C70, C73, C67 and C68. A write counts when it is complete: what an interrupted or failed write leaves is C63. That the program ends is not claimed (C59). Log output is C72 and C75."
  },
  {
   "property": "C78",
   "status": "proved",
   "theorems": [
    "Demag.Props.failure_told",
    "Demag.Props.errors_true",
    "Demag.Props.warnings_true",
    "Demag.Props.vain_told",
    "Demag.Props.batch_summary",
    "Demag.Props.saving_true",
    "Demag.Props.writes_told",
    "Demag.Props.announced_before",
    "Demag.Props.summary_last",
    "Demag.Props.moments_log",
    "Demag.Props.log_moments",
    "Demag.Props.fetch_told",
    "Demag.Props.config_told",
    "Demag.Props.log_run",
    "Demag.Props.run_log",
    "Demag.Props.failure_shown"
   ],
   "note": "Messages of src/main.rs, src/magnet.rs and src/torrent.rs. Where debug and trace messages of the tasks of trackers, peers and the DHT stand among them is left out, as are batches that crash (C69)."
  },
  {
   "property": "C79",
   "status": "proved",
   "theorems": [
    "Demag.Props.level_shown",
    "Demag.Props.target_own",
    "Demag.Props.shown_levels",
    "Demag.Props.shown_mono",
    "Demag.Props.off_shown",
    "Demag.Props.default_shown",
    "Demag.Props.stderr_read",
    "Demag.Props.program_lines",
    "Demag.Props.program_stderr",
    "Demag.Props.main_log_faithful"
   ],
   "note": "fern, chrono, anstyle and anstream are modelled from their documentation. program_lines assumes of the texts of errors of other crates what C72 does (EnvShown)."
  },
  {
   "property": "C80",
   "status": "partial",
   "theorems": [
    "Demag.Props.channel_buffer_small",
    "Demag.Props.next_reaches",
    "Demag.Props.visits_modest",
    "Demag.Props.metadata_small",
    "Demag.Props.handshake_buffer_small_partial",
    "Demag.Props.handshake_left_small",
    "Demag.Props.packet2_unbounded"
   ],
   "note": "false until packet 2 of the encryption handshake has been taken: packet2_unbounded (everything that arrives before the timeout is kept). How many bytes one read delivers is a parameter. The memory of decoded messages is not counted."
  },
  {
   "property": "C81",
   "status": "proved",
   "theorems": [
    "Demag.Props.no_amplification",
    "Demag.Props.wire_no_amplification",
    "Demag.Props.visits_modest"
   ],
   "note": "wire_no_amplification: the digest is any function to 20 bytes, the paddings have at most 512 bytes (src/peer/msepe.rs:100-101). Retransmission and headers of TCP are not counted; a write that fails half-way is not either."
  },
  {
   "property": "C82",
   "status": "proved",
   "theorems": [
    "Demag.Props.dht_packet_small",
    "Demag.Props.dht_lookup_queries",
    "Demag.Props.dht_replies_arrived",
    "Demag.Props.dht_traffic",
    "Demag.Props.dht_kept"
   ],
   "note": "Headers of UDP are not counted. A lookup is named by its number; the bytes of a reply are those of the packet."
  },
  {
   "property": "C83",
   "status": "proved",
   "theorems": [
    "Demag.Props.udp_packet_size",
    "Demag.Props.udp_traffic",
    "Demag.Props.udp_traffic_short"
   ],
   "note": "Headers of UDP are not counted. The time T is that between the first and the last event counted; timers may fire late."
  },
  {
   "property": "C84",
   "status": "proved",
   "theorems": [
    "Demag.Props.lookup_time",
    "Demag.Props.answer_time",
    "Demag.Props.answer_time_nodes"
   ],
   "note": "That timers are looked at when due is a hypothesis (`NoneOverdue`); the time spent in sending and computing is part of it. The time from the request to the start of the lookup (resolving the bootstrap nodes, and the channel) is not counted."
  },
  {
   "property": "C85",
   "status": "proved",
   "theorems": [
    "Demag.Props.ask_traffic",
    "Demag.Props.ask_datagram_size",
    "Demag.Props.ask_requests_few"
   ],
   "note": ""
  },
  {
   "property": "C86",
   "status": "proved",
   "theorems": [
    "Demag.Props.cut_short",
    "Demag.Props.run_on",
    "Demag.Props.crash_leaves",
    "Demag.Props.crash_leaves_torrents"
   ],
   "note": "Files are taken to be the same only if their paths have the same text; what the file system itself loses in a crash of the machine is not modelled: the bytes written are there."
  },
  {
   "property": "C87",
   "status": "proved",
   "theorems": [
    "Demag.Props.close_told",
    "Demag.Props.spawn_told",
    "Demag.Props.close_once",
    "Demag.Props.shutdown_told",
    "Demag.Props.lengths_told",
    "Demag.Props.tryRecv_told",
    "Demag.Props.tryRecv_done",
    "Demag.Props.tryRecv_rest",
    "Demag.Props.tryRecv_closed_empty"
   ],
   "note": "The documentation of try_recv promises Done as soon as the nursery is closed and the stream empty; tryRecv_closed_empty shows that it gives Empty while a job is running. A call of shutdown is two events, as in the code."
  },
  {
   "property": "C88",
   "status": "proved",
   "theorems": [
    "Demag.Props.program_peer_encryption",
    "Demag.Props.program_get_encryption",
    "Demag.Props.program_peer_finds"
   ],
   "note": ""
  },
  {
   "property": "C89",
   "status": "proved",
   "theorems": [
    "Demag.Props.peer_error_told",
    "Demag.Props.tracker_error_told",
    "Demag.Props.tracker_line_told",
    "Demag.Props.link_error_told",
    "Demag.Props.links_error_told",
    "Demag.Props.download_error_told",
    "Demag.Props.peer_line_told",
    "Demag.Props.reply_error_told",
    "Demag.Props.expected_told",
    "Demag.Props.asked_told"
   ],
   "note": ""
  },
  {
   "property": "C90",
   "status": "proved",
   "theorems": [
    "Demag.Props.handshake_drawn",
    "Demag.Props.handshake_sizes",
    "Demag.Props.handshake_chances",
    "Demag.Props.identity_drawn",
    "Demag.Props.nodeId_drawn"
   ],
   "note": "Uniformity and independence of the generator's own answers are assumed (crate rand)."
  },
  {
   "property": "C91",
   "status": "proved",
   "theorems": [
    "Demag.Props.lookup_finds",
    "Demag.Props.network_found",
    "Demag.Props.eight_mislead",
    "Demag.Props.false_name_misleads"
   ],
   "note": "The conditions are part of the property; that neither can be dropped is proved by concrete runs."
  },
  {
   "property": "C92",
   "status": "proved",
   "theorems": [
    "Demag.Props.dht_created",
    "Demag.Props.datagrams_delivered",
    "Demag.Props.datagram_waits",
    "Demag.Props.send_disabled",
    "Demag.Props.without_ipv6",
    "Demag.Props.with_ipv6",
    "Demag.Props.unasked_ipv6",
    "Demag.Props.socket_line_told"
   ],
   "note": "That replies list IPv6 nodes only when asked is part of the last clause; that it is needed is proved by a concrete run."
  },
  {
   "property": "C93",
   "status": "proved",
   "theorems": [
    "Demag.Props.lookups_conserved",
    "Demag.Props.create_retried",
    "Demag.Props.unresolved_fails",
    "Demag.Props.down_for_ever"
   ],
   "note": ""
  },
  {
   "property": "C94",
   "status": "proved",
   "theorems": [
    "Demag.Props.encrypted_takes_time",
    "Demag.Props.never_encrypted",
    "Demag.Props.no_fallback_in_time",
    "Demag.Props.silent_falls_back",
    "Demag.Props.responder_in_time"
   ],
   "note": ""
  },
  {
   "property": "C95",
   "status": "proved",
   "theorems": [
    "Demag.Props.dht_log_queries",
    "Demag.Props.dht_log_ends",
    "Demag.Props.dht_log_failures",
    "Demag.Props.dht_log_results",
    "Demag.Props.dht_log_packets",
    "Demag.Props.dht_log_ignored",
    "Demag.Props.dht_log_balanced",
    "Demag.Props.dht_failure_told"
   ],
   "note": ""
  },
  {
   "property": "C96",
   "status": "proved",
   "theorems": [
    "Demag.Props.tracker_gives_few",
    "Demag.Props.dht_gives_few",
    "Demag.Props.get_contacts_few",
    "Demag.Props.get_contacts_bounded",
    "Demag.Props.tracker_unlimited"
   ],
   "note": ""
  },
  {
   "property": "C97",
   "status": "proved",
   "theorems": [
    "Demag.Props.log_udp_right",
    "Demag.Props.log_connected",
    "Demag.Props.log_begins",
    "Demag.Props.log_peers",
    "Demag.Props.log_stop",
    "Demag.Props.log_warning",
    "Demag.Props.log_socket",
    "Demag.Props.log_others",
    "Demag.Props.log_exists",
    "Demag.Props.log_socket_early"
   ],
   "note": ""
  },
  {
   "property": "C98",
   "status": "proved",
   "theorems": [
    "Demag.Props.peerRun_log",
    "Demag.Props.visit_log",
    "Demag.Props.visit_last",
    "Demag.Props.secure_log",
    "Demag.Props.selected_iff",
    "Demag.Props.peerRun_received",
    "Demag.Props.peerRun_sending",
    "Demag.Props.peerRun_got",
    "Demag.Props.peerRun_failed",
    "Demag.Props.packet2_unreceived"
   ],
   "note": ""
  },
  {
   "property": "C99",
   "status": "proved",
   "theorems": [
    "Demag.Props.fleet_alone",
    "Demag.Props.fleet_unbegun",
    "Demag.Props.fleet_nothing",
    "Demag.Props.fleet_batch",
    "Demag.Props.fleet_together",
    "Demag.Props.fleet_swap",
    "Demag.Props.fleet_swap_over",
    "Demag.Props.fleet_asks_one",
    "Demag.Props.fleet_asks",
    "Demag.Props.fleet_asks_more",
    "Demag.Props.fleet_progress",
    "Demag.Props.fleet_terminates",
    "Demag.Props.fleet_get_alone",
    "Demag.Props.fleet_get_batch"
   ],
   "note": ""
  },
  {
   "property": "C100",
   "status": "proved",
   "theorems": [
    "Demag.Props.closing_alone",
    "Demag.Props.closing_told",
    "Demag.Props.closing_patient",
    "Demag.Props.closing_untold",
    "Demag.Props.closing_ready",
    "Demag.Props.closing_exits",
    "Demag.Props.closing_hangs",
    "Demag.Props.closing_left_behind"
   ],
   "note": ""
  },
  {
   "property": "C101",
   "status": "proved",
   "theorems": [
    "Demag.Props.download_in_time",
    "Demag.Props.download_reaches",
    "Demag.Props.download_at_once",
    "Demag.Props.batch_in_time",
    "Demag.Props.batch_reaches",
    "Demag.Props.download_bound_reached",
    "Demag.Props.batch_bound_reached"
   ],
   "note": "What the program itself does is taken to need no time."
  },
  {
   "property": "C102",
   "status": "proved",
   "theorems": [
    "Demag.Props.lookups_alike",
    "Demag.Props.lookup_over",
    "Demag.Props.lookups_together",
    "Demag.Props.lookup_served",
    "Demag.Props.event_one_lookup"
   ],
   "note": ""
  },
  {
   "property": "C103",
   "status": "proved",
   "theorems": [
    "Demag.Props.aftermath_peers",
    "Demag.Props.aftermath_trackers",
    "Demag.Props.aftermath_bounded",
    "Demag.Props.aftermath_handed_over",
    "Demag.Props.aftermath_once",
    "Demag.Props.aftermath_lets_go",
    "Demag.Props.aftermath_ends",
    "Demag.Props.trackers_patience"
   ],
   "note": ""
  },
  {
   "property": "C104",
   "status": "proved",
   "theorems": [
    "Demag.Props.told_trackers",
    "Demag.Props.told_dht",
    "Demag.Props.told_peers",
    "Demag.Props.name_told_nobody",
    "Demag.Props.told_nothing",
    "Demag.Props.net_fleet_get"
   ],
   "note": "what reqwest does on its own account (redirects that a tracker asks for, proxies set in the environment) and name lookups are not modelled: a tracker that redirects can make the HTTP client tell another host"
  },
  {
   "property": "C105",
   "status": "proved",
   "theorems": [
    "Demag.Props.same_torrent",
    "Demag.Props.same_torrents"
   ],
   "note": ""
  },
  {
   "property": "C106",
   "status": "proved",
   "theorems": [
    "Demag.Props.silence_progress",
    "Demag.Props.silence_terminates",
    "Demag.Props.silence_ends"
   ],
   "note": ""
  },
  {
   "property": "C107",
   "status": "proved",
   "theorems": [
    "Demag.Props.stallers_progress",
    "Demag.Props.stallers_found",
    "Demag.Props.stallers_reach",
    "Demag.Props.stallers_enough"
   ],
   "note": ""
  },
  {
   "property": "C108",
   "status": "proved",
   "theorems": [
    "Demag.Props.stuck_links_progress",
    "Demag.Props.stuck_links_reach",
    "Demag.Props.stuck_links_enough"
   ],
   "note": ""
  },
  {
   "property": "C109",
   "status": "proved",
   "theorems": [
    "Demag.Props.jobs_same_result",
    "Demag.Props.jobs_same_end",
    "Demag.Props.jobs_same_exit"
   ],
   "note": ""
  },
  {
   "property": "C110",
   "status": "proved",
   "theorems": [
    "Demag.Props.lossy_run",
    "Demag.Props.lossy_goes_on",
    "Demag.Props.lossy_ends",
    "Demag.Props.lossy_result",
    "Demag.Props.one_lost",
    "Demag.Props.two_lost",
    "Demag.Props.duplicate_fatal",
    "Demag.Props.slow_fatal"
   ],
   "note": ""
  }
 ]
}
