{"id": "C01", "title": "Info hash text form round-trips and is accepted exactly", "statement": "Parsing the printed form of any 20-byte info hash returns that info hash; a 32-character upper-case base32 text and a 40-character hex text (either letter case) of the same 20 bytes parse to the same info hash; any other text is rejected, and every accepted text denotes exactly 20 bytes.", "quantifier": "all 20-byte info hashes and all input strings", "why_tests_cant": "the set of strings and hashes is unbounded/2^160; tests check a handful of literals", "anchors": ["src/types.rs: InfoHash::from_str, InfoHash Display, From<[u8; 20]>"]}
{"id": "C02", "title": "Compact peer addresses round-trip and are split on exact boundaries", "statement": "Encoding an IPv4/IPv6 socket address to compact form and decoding it gives the same address; a compact list decodes to exactly the concatenated addresses in order and is rejected iff its length is not a multiple of the entry size (6 or 18 bytes; 26 or 38 for DHT nodes).", "quantifier": "all addresses, all byte strings of any length", "why_tests_cant": "all byte lengths and contents must be covered, including every leftover length", "anchors": ["src/compact.rs: AsCompact, FromCompact", "src/util.rs: TryFromBuf, TryBytes", "src/dht/mod.rs: Node"]}
{"id": "C03", "title": "Peer wire messages round-trip", "statement": "Every core peer message that demagnetize can represent decodes from its own encoding to itself, and every accepted payload re-encodes to exactly the bytes received, so no two payloads mean the same message and unknown ids or wrong lengths are rejected.", "quantifier": "all messages (any bitfield/piece/extended payload) and all byte strings", "why_tests_cant": "payloads are arbitrary bytes of arbitrary length", "anchors": ["src/peer/messages.rs: CoreMessage::encode/decode"]}
{"id": "C04", "title": "BitTorrent handshake codec is exact", "statement": "A handshake is encoded as exactly 68 bytes with the standard header; decoding it returns the same reserved bits, info hash and peer id; a 68-byte string is accepted iff it starts with the standard header.", "quantifier": "all reserved bit sets, info hashes, peer ids and all 68-byte strings", "why_tests_cant": "2^(64+160+160) values", "anchors": ["src/peer/messages.rs: Handshake"]}
{"id": "C05", "title": "Extension bit sets behave as sets", "statement": "An extension set built from a list has exactly the listed extensions, intersection has exactly those in both, and the mapping to the 64-bit reserved field and back loses nothing, so two distinct extensions never share a bit.", "quantifier": "all lists of extensions, all 64-bit reserved fields", "why_tests_cant": "all 2^64 reserved fields", "anchors": ["src/peer/extensions.rs: Extension, ExtensionSet"]}
{"id": "C06", "title": "BEP 10 registry is a bijection", "statement": "After any history of registrations the registry's two lookup directions agree, no code is used twice, no extension has two codes, code 0 is never assigned, and a failed registration changes nothing; parsing the `m` dictionary and re-emitting it preserves the known entries.", "quantifier": "all sequences of register calls / all `m` dictionaries", "why_tests_cant": "invariant over every history of calls", "anchors": ["src/peer/extensions.rs: Bep10Registry::register, from_m, to_m"]}
{"id": "C07", "title": "Message framing is independent of how bytes arrive", "statement": "Whatever way the TCP byte stream is cut into reads, the sequence of frames delivered is the same, equals the sequence of payloads sent with 4-byte big-endian length prefixes, and a frame longer than 65535 bytes is rejected.", "quantifier": "all payload sequences and all partitions of the byte stream into reads", "why_tests_cant": "all schedules of reads", "anchors": ["src/peer/mod.rs: MessageChannel", "src/consts.rs: MAX_PEER_MSG_LEN"]}
{"id": "C08", "title": "ut_metadata messages round-trip", "statement": "Every request, data and reject metadata message decodes from its own encoding to itself, including data payloads that themselves look like bencode; messages with trailing bytes after request/reject or missing piece are rejected.", "quantifier": "all piece indices, total sizes and payload bytes", "why_tests_cant": "payload bytes after the dictionary are arbitrary", "anchors": ["src/peer/messages.rs: MetadataMessage::encode/decode"]}
{"id": "C09", "title": "Extended handshake round-trips", "statement": "An extended handshake decodes from its own encoding to the same content (extension codes, metadata size, client string, peer's own IP) whatever combination of optional fields is present, and the encoding is canonical bencode.", "quantifier": "all extended handshakes", "why_tests_cant": "all combinations and values of optional fields", "anchors": ["src/peer/messages.rs: ExtendedHandshake"]}
{"id": "C10", "title": "Bencode reading is canonical", "statement": "Reading the bencoding of any value gives back the value; any accepted byte string is exactly the bencoding of the value obtained (no leading zeros, no negative zero, dictionary keys strictly increasing, no trailing data), so one document has one meaning.", "quantifier": "all bencode values and all byte strings", "why_tests_cant": "recursive data of unbounded size and depth", "anchors": ["src/util.rs: decode_bencode", "src/torrent.rs: check_bencode_dict"]}
{"id": "C11", "title": "Metadata is divided into pieces that cover it exactly", "statement": "For every metadata size up to 20 MiB, pieces are requested for indices 0..n-1 in order, all of 16 KiB except possibly the last, whose sizes sum to the metadata size; larger sizes are refused; pushing wrong-size pieces or too many pieces is an error.", "quantifier": "all sizes and all push histories", "why_tests_cant": "all sizes up to 20 MiB and beyond, all histories", "anchors": ["src/torrent.rs: TorrentInfoBuilder"]}
{"id": "C12", "title": "Only metadata with the requested hash becomes a torrent", "statement": "Whatever sequence of pieces a peer sends, the builder yields an info dictionary only if the concatenation of the accepted pieces has the announced size, has the requested SHA-1 digest and is one complete bencoded dictionary; then it is returned byte for byte.", "quantifier": "all histories of pushed pieces, all digests", "why_tests_cant": "adversarial peers; all histories", "anchors": ["src/torrent.rs: TorrentInfoBuilder::build, check_bencode_dict"]}
{"id": "C13", "title": "The .torrent file is valid bencode embedding the metadata verbatim", "statement": "For any info dictionary, tracker list, node list and creation date, the bytes written parse as one bencoded dictionary with strictly sorted keys whose `info` value is byte-for-byte the received metadata (hence has the requested info hash), whose announce-list is one singleton tier per tracker in order, and whose optional keys are absent exactly when empty.", "quantifier": "all infos, tracker lists, node lists, dates", "why_tests_cant": "all file contents", "anchors": ["src/torrent.rs: From<TorrentFile> for Bytes", "src/torrent.rs: TorrentFile::new"]}
{"id": "C14", "title": "Metadata download session asks in order and yields only verified data", "statement": "In any conversation with a peer, demagnetize requests piece i+1 only after accepting piece i, accepts a piece only with the requested index and announced total size, replies to every metadata request with a reject for the same piece, ignores exactly the ignorable messages, and ends successfully only with hash-verified metadata.", "quantifier": "all message sequences a peer may send", "why_tests_cant": "adversarial message schedules", "anchors": ["src/peer/mod.rs: get_metadata_info"]}
{"id": "C15", "title": "Output path templates are read back faithfully", "statement": "Escaping literal braces by doubling and writing {name}/{hash} for fields, any sequence of literals and fields parses to a template that formats to the expected text; a single closing brace stands for itself; any opening brace that begins neither an escape nor a known field makes the template rejected, the error naming the byte index of the first such brace or the unknown field.", "quantifier": "all templates, names and hashes", "why_tests_cant": "all strings", "anchors": ["src/torrent.rs: PathTemplate::from_str, PathTemplate::format"]}
{"id": "C16", "title": "Sanitised names contain no path separators or reserved characters", "statement": "The torrent name put into a path never contains '/', '\\\\', control characters below space or any of <>:|\"?*; the number of characters is unchanged, permitted characters are unchanged, and sanitising twice is the same as once.", "quantifier": "all names", "why_tests_cant": "all strings", "anchors": ["src/torrent.rs: sanitize"]}
{"id": "C17", "title": "A torrent name cannot move the output outside the template's directory", "statement": "For every torrent name a peer may supply, substituting it into the template adds no new path component, and the resulting component is not `.` or `..`, and does not turn the file output into standard output.", "quantifier": "all names and templates", "why_tests_cant": "adversarial names", "anchors": ["src/torrent.rs: TorrentFile::save, PathTemplate::format, sanitize"]}
{"id": "C18", "title": "Magnet link parsing takes exactly the right fields", "statement": "A magnet link is accepted iff its scheme is magnet, it has exactly one xt parameter and that is a valid urn:btih info hash, and all tr parameters are supported tracker URLs; then the result has that info hash, the last dn as name, and the trackers in order; the position of the fields does not matter.", "quantifier": "all lists of query parameters", "why_tests_cant": "all parameter lists in every order", "anchors": ["src/magnet.rs: Magnet::from_str, parse_xt"]}
{"id": "C19", "title": "Magnet files are read line by line", "statement": "Reading a magnets file yields exactly the magnets on the non-blank, non-comment lines, in order; if some such line is invalid the whole file is rejected naming the first such line (1-based).", "quantifier": "all file contents", "why_tests_cant": "all files", "anchors": ["src/magnet.rs: parse_magnets_file"]}
{"id": "C20", "title": "Exit status reflects full success", "statement": "The batch command exits successfully iff the list of magnet links could be read and every one of them was downloaded and saved; get exits successfully iff the single download was; query-tracker exits successfully iff the tracker answered, query-dht iff some peer was found, query-peer iff the metadata was obtained and saved.", "quantifier": "all lists of magnets and all outcomes in any completion order", "why_tests_cant": "all completion schedules", "anchors": ["src/main.rs: Command::run"]}
{"id": "C21", "title": "UDP announce requests have the BEP 15/41 layout", "statement": "Every UDP announce request consists of the 98-byte BEP 15 header with each field at its specified offset, followed by BEP 41 URL-data options that an independent reader reassembles to exactly the tracker URL's path and query, whatever its length.", "quantifier": "all announce parameters and URL data of any length", "why_tests_cant": "all lengths including multiples of 255", "anchors": ["src/tracker/udp.rs: UdpAnnounceRequest -> Bytes, UdpConnectionRequest -> Bytes"]}
{"id": "C22", "title": "UDP responses are decoded exactly", "statement": "A connection/announce response built per BEP 15 decodes to its fields with every peer address in order; truncated packets, and announce responses ending in part of an address, are rejected (a connection response may be followed by further bytes, as BEP 15 allows); error packets yield the tracker's message.", "quantifier": "all packets, any number of peers, both address families", "why_tests_cant": "all byte strings", "anchors": ["src/tracker/udp.rs: Response::from_bytes, UdpConnectionResponse, UdpAnnounceResponse"]}
{"id": "C23", "title": "A UDP reply is used only for the request it answers", "statement": "No data from a UDP packet (peers, connection id or error) is used unless its transaction id equals that of the request in progress.", "quantifier": "all packet sequences", "why_tests_cant": "adversarial packets and all interleavings", "anchors": ["src/tracker/udp.rs: connect, announce, Response::from_bytes"]}
{"id": "C24", "title": "UDP connection ids are used only while valid", "statement": "An announce is sent only with a connection id obtained from this tracker less than 60 seconds before the send, and a connection id past its expiration is never reused; a new connect is performed instead.", "quantifier": "all clocks, delays and reply schedules", "why_tests_cant": "all timing schedules", "anchors": ["src/tracker/udp.rs: UdpTrackerSession::announce, get_connection, reset_connection"]}
{"id": "C25", "title": "UDP retransmission follows exponential backoff", "statement": "The n-th (re)transmission waits 15*2^min(n,8) seconds before the next, so waits never decrease, never exceed 3840 s and no overflow occurs, for every number of retries.", "quantifier": "all retry counts", "why_tests_cant": "unbounded retries", "anchors": ["src/tracker/udp.rs: UdpSocket::chat"]}
{"id": "C26", "title": "HTTP announce query is decoded by the tracker to what was meant", "statement": "Form-decoding the query string of the announce URL yields exactly the parameters in order, with info_hash and peer_id equal to the raw 20 bytes for every value, and it preserves the parameters already in the tracker's URL.", "quantifier": "all info hashes, peer ids, keys, existing queries", "why_tests_cant": "2^160 hashes, every byte value", "anchors": ["src/tracker/http.rs: HttpTrackerSession::announce", "src/types.rs: add_bytes_query_param"]}
{"id": "C27", "title": "HTTP announce responses are decoded exactly", "statement": "For any bencoded response: a failure reason yields that failure and nothing else; otherwise the peers are the listed (compact or dictionary) peers followed by IPv6 peers, in order, each annotated with its own crypto flag.", "quantifier": "all bencode responses", "why_tests_cant": "all documents", "anchors": ["src/tracker/http.rs: HttpAnnounceResponse"]}
{"id": "C28", "title": "Each peer address is contacted once per magnet", "statement": "The stream of peers from all trackers passes on exactly the first occurrence of each address, in arrival order, and never the same address twice, however tracker replies interleave.", "quantifier": "all arrival orders", "why_tests_cant": "all interleavings", "anchors": ["src/asyncutil/unique_stream.rs: UniqueByStream", "src/magnet.rs: get_torrent_file"]}
{"id": "C29", "title": "Never more than the configured number of jobs runs at once", "statement": "In every schedule of the worker nursery, at most N tasks run at the same time and tasks are handed to the workers in the order spawned, so none begins before all those spawned earlier have been handed to a worker.", "quantifier": "all schedules, N, and tasks", "why_tests_cant": "all interleavings", "anchors": ["src/asyncutil/worker_nursery.rs: WorkerNursery"]}
{"id": "C30", "title": "Every spawned job yields exactly one result", "statement": "In every schedule without shutdown, each spawned job is run exactly once and its output is delivered exactly once; the output stream ends only after the nursery is closed and all outputs delivered; after shutdown no queued job starts and none is delivered twice.", "quantifier": "all schedules", "why_tests_cant": "all interleavings", "anchors": ["src/asyncutil/worker_nursery.rs: WorkerNursery, WorkerNurseryStream"]}
{"id": "C31", "title": "Peer encryption policy is obeyed", "statement": "With preference `always` no plaintext connection is ever attempted; with `never` no encrypted one; a peer that requires encryption is never contacted in plaintext, and is not contacted at all if encryption is forbidden; fallback from encrypted to plaintext happens only if encryption was merely preferred and only after an encryption-handshake failure.", "quantifier": "all settings, peer flags, connection outcomes", "why_tests_cant": "all combinations and outcomes of attempts", "anchors": ["src/peer/mod.rs: InfoGetter::run, get_crypto_mode", "src/config.rs: CryptoPreference::get_crypto_mode"]}
{"id": "C32", "title": "Tracker encryption flags follow the policy", "statement": "The announce tells the tracker requirecrypto iff encryption is always required, nothing iff it is never to be used, and supportcrypto for the two preferences in between (if required by the peer, preferred); an explicit command line override takes precedence.", "quantifier": "all settings", "why_tests_cant": "all combinations", "anchors": ["src/config.rs: CryptoPreference::get_tracker_crypto", "src/tracker/mod.rs: get_tracker_crypto, TrackerCrypto"]}
{"id": "C33", "title": "Encrypted handshake result is independent of segmentation", "statement": "However the responder's encrypted reply is cut into reads, the handshake reaches the same state and the same leftover application bytes; VC must be eight zero bytes, exactly one offered method must be selected and PadD is skipped exactly.", "quantifier": "all byte streams and partitions", "why_tests_cant": "all schedules", "anchors": ["src/peer/msepe.rs: Handshaker::handle_input, EncryptedStream::handshake"]}
{"id": "C34", "title": "Diffie-Hellman key agreement", "statement": "Both ends of the MSE key exchange derive the same 96-byte secret, for all private keys, and public keys/secrets are always sent as exactly 96 big-endian bytes that decode to the same number.", "quantifier": "all private keys", "why_tests_cant": "2^160 private keys", "anchors": ["src/peer/msepe.rs: handle_timeout, biguint2bytes, prime_modulus"]}
{"id": "C35", "title": "Encrypted stream delivers exactly what was written", "statement": "Whatever partial writes and reads the network performs, the plaintext the remote side decrypts is a prefix of (after flush, equal to) the plaintext written, in order, with each byte encrypted exactly once.", "quantifier": "all plaintexts and all partial read/write schedules", "why_tests_cant": "all schedules", "anchors": ["src/peer/msepe.rs: EncryptedStream poll_read/poll_write/poll_flush"]}
{"id": "C36", "title": "DHT distance is a metric that orders nodes", "statement": "The distance between a node id and an info hash is zero iff they are equal, is symmetric, satisfies the triangle inequality, and for any target different nodes have different distances.", "quantifier": "all ids", "why_tests_cant": "2^160 ids", "anchors": ["src/dht/mod.rs: NodeId ^ InfoHash, Distance"]}
{"id": "C37", "title": "DHT lookup considers the closest nodes first", "statement": "After any history of discoveries the node set contains each address at most once, the nodes queried next are exactly the not-yet-queried among the k closest known, and the reported closest nodes are the k closest that are marked responsive, in order of distance.", "quantifier": "all histories of discoveries and responses", "why_tests_cant": "all histories", "anchors": ["src/dht/actor.rs: NodeSpace"]}
{"id": "C38", "title": "A DHT lookup queries an address at most once", "statement": "During a lookup no address is sent more than one query.", "quantifier": "all response schedules", "why_tests_cant": "all histories", "anchors": ["src/dht/actor.rs: LookupSession, NodeSpace::closest_unqueried"]}
{"id": "C39", "title": "Every DHT lookup ends with exactly one answer", "statement": "For every lookup request, in every schedule of replies, errors, garbage and timeouts, at most one result is delivered, it is delivered as soon as no query is outstanding and no closer node remains to ask, and the lookup terminates because only finitely many queries can be sent for finitely many nodes; so there is exactly one result (provided that no query carries the transaction ID of a query to the same address that is still outstanding, for which 2^32 queries would have to be sent in the meantime, the client is not shut down and its timers run out).", "quantifier": "all schedules", "why_tests_cant": "all interleavings", "anchors": ["src/dht/actor.rs: DhtActor::run, handle_message, postprocess_session"]}
{"id": "C40", "title": "Unsolicited or mismatched DHT replies are ignored", "statement": "A reply whose transaction id and source address do not match an outstanding query leaves every lookup unchanged, and each outstanding query is consumed by at most one reply.", "quantifier": "all packets and states", "why_tests_cant": "adversarial packets", "anchors": ["src/dht/actor.rs: handle_message"]}
{"id": "C41", "title": "DHT transaction ids are not reused while outstanding", "statement": "Transaction ids generated are pairwise different for the first 2^32 queries, and each is a 4-byte string.", "quantifier": "all sequences of generated ids", "why_tests_cant": "2^32 ids", "anchors": ["src/dht/actor.rs: TransactionGenerator"]}
{"id": "C42", "title": "DHT messages are encoded and decoded exactly", "statement": "A get_peers query is canonical bencode containing exactly the given fields; responses decode to the listed values/nodes; the classification by `y` and transaction id is exact and malformed messages are rejected.", "quantifier": "all queries and all byte strings", "why_tests_cant": "all documents", "anchors": ["src/dht/messages.rs"]}
{"id": "C43", "title": "Local port settings are parsed exactly and yield a port in range", "statement": "A local-port text is accepted iff it is a decimal port in 0..65535 or a range low-high of two such numbers with low<=high (each bound may carry a plus sign and surrounding blanks, as Rust's integer parsing and trim allow), and every port generated from it lies within the range.", "quantifier": "all strings, all random draws", "why_tests_cant": "all strings", "anchors": ["src/config.rs: LocalPort"]}
{"id": "C44", "title": "JSON output is well-formed and faithful", "statement": "The JSON printed for any peer is printable ASCII on one line and is a well-formed JSON object whose members denote exactly the peer's address, port, peer ID (read as UTF-8 with U+FFFD for ill-formed pieces, or null) and encryption flag, for every peer ID; the string writer is faithful for every Unicode string.", "quantifier": "all strings (all Unicode scalar values)", "why_tests_cant": "all strings", "anchors": ["src/peer/mod.rs: DisplayJson, write_json_str"]}
{"id": "C45", "title": "Peer ids are 20 bytes with the client prefix", "statement": "Every generated peer id is exactly 20 bytes, starts with the (truncated) client prefix, and the rest is ASCII alphanumeric.", "quantifier": "all prefixes and random draws", "why_tests_cant": "all random outcomes", "anchors": ["src/types.rs: PeerId::generate", "build.rs"]}
{"id": "C46", "title": "A magnet resolves iff some peer gives valid metadata", "statement": "For every completion order of tracker and peer tasks: the download succeeds iff some contacted peer task succeeds, the result is that of the first success and carries the magnet's trackers unchanged; tracker failures only remove that tracker's peers; if no peer succeeds the error says nothing was obtained.", "quantifier": "all completion orders and outcomes", "why_tests_cant": "all schedules", "anchors": ["src/magnet.rs: Magnet::get_torrent_file"]}
{"id": "C47", "title": "Reported closest DHT nodes have responded", "statement": "Every node reported as closest (and written to the torrent's `nodes`) has actually answered a query in this lookup from its address.", "quantifier": "all schedules and adversarial nodes", "why_tests_cant": "adversarial histories", "anchors": ["src/dht/actor.rs: NodeSpace::mark_responsive, closest_responsive"]}
{"id": "C48", "title": "UDP tracker URLs print and parse consistently", "statement": "Printing a parsed UDP tracker URL and splitting the text again yields the same host, port and URL data (including IPv6 literal hosts and empty path or query); reading the printed text as a tracker yields the same tracker.", "quantifier": "all hosts, ports, paths, queries", "why_tests_cant": "all strings", "anchors": ["src/tracker/udp.rs: UdpUrl Display, TryFrom<Url>"]}
{"id": "C49", "title": "Every successful start is followed by a stop", "statement": "For every tracker session, a `stopped` announcement is attempted iff the `started` announcement succeeded (unless the grace period at shutdown ended before it could begin), at most once, and the peers returned do not depend on whether the stop succeeds.", "quantifier": "all outcomes and schedules", "why_tests_cant": "all outcomes", "anchors": ["src/tracker/mod.rs: PeerGetter, TrackerSession"]}
{"id": "C50", "title": "Shutdown cancels and waits for every task", "statement": "Shutting down waits for every registered task to end: tasks finishing within the grace period are not cancelled, all others are cancelled (unless they are spawned just after nothing was found to wait for, see C100), and shutdown returns only when none is left.", "quantifier": "all task sets and finishing times", "why_tests_cant": "all schedules", "anchors": ["src/asyncutil/shutdown_group.rs: ShutdownGroup"]}
{"id": "C51", "title": "Connecting to a peer performs the checks in order", "statement": "Metadata is requested from a peer only after a handshake with the right info hash, BEP 10 support on both sides, a first message that is an extended handshake, and a registered ut_metadata extension; HaveNone is sent iff both sides support the Fast extension.", "quantifier": "all peer behaviours", "why_tests_cant": "all message sequences", "anchors": ["src/peer/mod.rs: InfoGetter::connect"]}
{"id": "C52", "title": "Info dictionary check accepts exactly one complete dictionary", "statement": "A byte string passes the metadata check iff it is a single, complete, non-trailing bencoded dictionary; the error kind tells which condition failed.", "quantifier": "all byte strings", "why_tests_cant": "all byte strings", "anchors": ["src/torrent.rs: check_bencode_dict"]}
{"id": "C53", "title": "Integer wire fields are big-endian and bounds-checked", "statement": "Reading an unsigned field of width w consumes exactly w bytes, gives the big-endian value, and fails iff fewer than w bytes remain, leaving no partial consumption visible; reading all consumes everything.", "quantifier": "all byte strings, widths", "why_tests_cant": "all byte strings", "anchors": ["src/util.rs: TryBytes, TryFromBuf"]}
{"id": "C54", "title": "Host:port texts parse by the last colon", "statement": "A bootstrap-node address text host:port parses iff it has a colon, the text after the last colon is a valid port and the text before it is a valid host, and carries exactly these; it resolves to that IP address with that port (an IPv6 address only if IPv6 is enabled) or to the first usable address of the domain name.", "quantifier": "all strings", "why_tests_cant": "all strings", "anchors": ["src/dht/mod.rs: InetAddr"]}
{"id": "C55", "title": "Lists and error chains are displayed faithfully", "statement": "The comma list display shows each element in order separated by ', ' and '<none>' iff empty; an error chain shows every source in order separated by ': '.", "quantifier": "all lists, all chains", "why_tests_cant": "all lengths", "anchors": ["src/util.rs: CommaList, ErrorChain"]}
{"id": "C56", "title": "DHT queries carry the lookup's infohash and our own ID", "statement": "Every query sent for a DHT lookup carries the infohash of the lookup for which it was sent, the client's own node ID, the read-only flag and the client version, and asks for nodes of both address families exactly when IPv6 is in use.", "quantifier": "all sequences of requests, packets, timeouts and send failures", "why_tests_cant": "any interleaving of several lookups must not mix up their infohashes", "anchors": ["src/dht/actor.rs:LookupSession::get_outgoing", "src/dht/actor.rs:DhtActor::run"]}
{"id": "C57", "title": "Printed addresses are read back", "statement": "A text is accepted as a peer address exactly if it is the text of a socket address (dotted decimal with a port, or an IPv6 address in brackets with a port, in any of the usual notations), and stands for that address; the address printed for any peer by query-tracker and query-dht is such a text and is read back by query-peer as the same address, so that different addresses are printed differently; IPv6 addresses are printed in the form RFC 5952 recommends.", "quantifier": "all texts, all IPv4 and IPv6 addresses, all ports", "why_tests_cant": "2^144 addresses with zero compression and embedded IPv4, and all texts", "anchors": ["src/peer/mod.rs: FromStr for Peer", "src/peer/mod.rs: FromBencode for Peer", "src/main.rs: QueryTracker, QueryDht"]}
{"id": "C58", "title": "A downloaded torrent file belongs to the magnet link", "statement": "However trackers, the DHT and peers answer, lie, stall or fail, and in whatever order, a download that does not panic (see C69: only an excessive key exchange timeout makes it) writes either nothing or exactly one torrent file; that file's info dictionary is canonical bencode with the SHA-1 digest asked for by the magnet link, its announce-list is the link's trackers in order (absent without trackers), and its nodes are those found by the DHT (only for a link without trackers).  If a contacted peer that may be contacted under the encryption preference delivers the metadata, a finished download yields a file.", "quantifier": "all schedules of tracker tasks, peer tasks and the main loop, all bytes sent by peers, all answers of trackers and the DHT, all magnet links, all templates", "why_tests_cant": "arbitrary adversarial peers under arbitrary interleavings", "anchors": ["src/magnet.rs: Magnet::get_torrent_file, download_torrent_file", "src/peer/mod.rs: InfoGetter::run", "src/torrent.rs: TorrentInfoBuilder, TorrentFile"]}
{"id": "C59", "title": "A download always ends", "statement": "A download comes to a result (a file or an error) in bounded time once trackers and the DHT have answered, whatever peers do.  (False as stated: only connecting to a peer is subject to a timeout, so a peer that agrees to talk about the metadata and then stalls can hold up a download for ever; it holds if no peer stalls after having agreed.)", "quantifier": "all behaviours of peers, all schedules", "why_tests_cant": "absence of hangs for every peer behaviour", "anchors": ["src/peer/mod.rs: InfoGetter::run, PeerConnection::get_metadata_info", "src/magnet.rs: Magnet::get_torrent_file"]}
{"id": "C60", "title": "The configuration file means what the manual says", "statement": "A configuration file is accepted iff each setting it gives is of the documented kind (positive job numbers, seconds, a port or an ascending range of ports, one of the four words for encryption, a nonempty list of host:port texts); then every setting is what the file gives, or the documented default if the file does not give it.  Unknown sections change nothing.  Hence at least one job of each kind runs at a time, at least one peer is asked for and one bootstrap node exists, whatever the accepted file.", "quantifier": "all configuration files, as value trees", "why_tests_cant": "arbitrary combinations of present, missing and ill-typed settings", "anchors": ["src/config.rs: Config, GeneralConfig, TrackersConfig, PeersConfig, DhtConfig, CryptoPreference, deserialize_seconds", "README.md: Configuration"]}
{"id": "C61", "title": "Which configuration is used, and the exit status of the program", "statement": "With --no-config the defaults are used; with --config FILE that file, and if it cannot be read or is not accepted the program fails without running the command; otherwise the file in the default place, or the defaults iff there is no such file.  The command runs once with that configuration; then the DHT actor (if any) is told to stop, the remaining announcements get the configured time, and the program ends with the command's status.", "quantifier": "all option settings, file systems, configuration files and commands", "why_tests_cant": "all combinations of options and file system states", "anchors": ["src/main.rs: Arguments::run", "src/config.rs: Config::load", "src/app.rs: App::shutdown"]}
{"id": "C62", "title": "There is at most one DHT node", "statement": "However many lookups are made, at the same time or one after the other, failing or aborted, at most one DHT actor is ever started; every lookup that gets an actor gets that one; it is the one told to stop at the end; a failure to create it leaves the next lookup free to try again; and nobody waits for the handle for good.", "quantifier": "all histories of lookups, failures, aborts and shutdown", "why_tests_cant": "all interleavings of concurrent tasks", "anchors": ["src/app.rs: App::get_dht_handle, App::shutdown"]}
{"id": "C63", "title": "Torrent files written at the same time do not disturb each other", "statement": "When several torrent files are written at the same time to different places, then at any moment, also after a crash, each place holds what was there before or a beginning of its torrent file, and the whole torrent file once its writing has returned; all other files are untouched; and writing ends.  (Of files that go to the same place this is false: both may be reported as written and the result be a mixture; a file is certain to be whole in the end if and only if all that is written to its place is the same.)", "quantifier": "all schedules of opening and partial writing, all contents", "why_tests_cant": "all interleavings and crash points", "anchors": ["src/torrent.rs: TorrentFile::save", "src/main.rs: Command::run (Batch)"]}
{"id": "C64", "title": "A successful batch leaves a torrent file for every magnet link", "statement": "Under every accepted configuration the batch command does not crash (but see C69 about excessive key exchange timeouts), and if it exits successfully then for every magnet link of the list a torrent file that belongs to it (info hash, trackers) was saved where the template says, and it is on the disk, whole, when the program ends.  (The last part is false as stated: with a template without {hash}, such as the default, torrents of the same name overwrite each other or get mixed up; it holds with {hash} and different info hashes, and with any template exactly of those torrent files for which everything written to the same path is the same.)", "quantifier": "all lists of magnet links, templates, configurations, schedules and behaviours of the network", "why_tests_cant": "all interleavings of the concurrent downloads", "anchors": ["src/main.rs: Command::run (Batch)", "src/torrent.rs: TorrentFile::save, PathTemplate"]}
{"id": "C65", "title": "An encrypted conversation hides everything and loses nothing", "statement": "When the connection to a peer is encrypted, then whatever the peer and the network do, nothing but the two packets of the encryption handshake and the conversation hidden with the keystream of the shared secret is put on the network, and nothing of the conversation before the handshake is complete; and with a peer that follows the protocol the result of asking it is the same as that of asking, without encryption, a peer that says the same. The encryption fails, and does not merely wait, when the peer refuses the handshake or a packet of it cannot be sent.", "quantifier": "all private keys, paddings, conversations, cuts of the stream into reads, sizes of the reads and failures of the network", "why_tests_cant": "all keys, paddings and divisions of the stream of bytes", "anchors": ["src/peer/mod.rs: InfoGetter::run, InfoGetter::connect", "src/peer/msepe.rs: EncryptedStream, HandshakeBuilder"]}
{"id": "C66", "title": "The peers of a tracker come from its answer to our announcement", "statement": "Asking a tracker returns peers only from an answer to the announcement that the download has started: for a UDP tracker a packet with the transaction ID of the last datagram sent, for an HTTP tracker the body of the response to the only URL requested.  Everything sent, to the first address found for the tracker's host, is a connect request or such an announcement; that it has stopped is announced only after peers were returned; there is at most one result; and a tracker that answers has its peers returned.", "quantifier": "all trackers, answers, times, transaction IDs, failures and schedules", "why_tests_cant": "all histories of packets, timers and failures", "anchors": ["src/tracker/mod.rs: PeerGetter, TrackerSession", "src/tracker/udp.rs: UdpTrackerSession, ConnectedUdpSocket", "src/tracker/http.rs: HttpTrackerSession"]}
{"id": "C67", "title": "The query commands print exactly the peers found", "statement": "query-tracker prints, when the tracker has answered the announcement of the given info hash (with the encryption flags of the command line), exactly the addresses in the answer, one per line and in order, and is successful; query-dht prints exactly the peers listed in the responses to its queries and is successful if there is one; otherwise nothing is printed and the command fails.  Every line is accepted by query-peer as that address, and with --json it is a JSON object with the IP address, the port, the ID and the need for encryption.  If the standard output fails the lines before are whole and the program crashes.", "quantifier": "all answers, peers, flags and failures of the standard output", "why_tests_cant": "all addresses, lists and histories of packets", "anchors": ["src/main.rs: Command::run (QueryTracker, QueryDht)", "src/peer/mod.rs: DisplayJson, FromStr for Peer"]}
{"id": "C68", "title": "query-peer writes the metadata of the info hash or nothing", "statement": "query-peer crashes only if the key exchange timeout is excessive (C69), and then it has written nothing; if it is successful it has written exactly one file, to where the template says: a torrent file without trackers and nodes whose info dictionary has the given info hash; if it fails it has written nothing.  With --encrypt every connection attempt is encrypted, with --no-encrypt none.  With a peer that delivers the metadata over the connection asked for, and a file system that works, it is successful.", "quantifier": "all peers, bytes received, keys, flags, templates and failures of the network and the file system", "why_tests_cant": "all conversations and cuts of the stream", "anchors": ["src/main.rs: Command::run (QueryPeer)", "src/peer/mod.rs: InfoGetter", "src/torrent.rs: TorrentFile::save"]}
{"id": "C69", "title": "Nobody can crash the program", "statement": "Under every accepted configuration and whatever trackers, the DHT, peers and the network do, a download does not panic and neither the batch command nor query-peer crashes.  (False as stated: the configuration accepts a dh-exchange-timeout so large that the moment at which it ends cannot be represented; then the first encrypted connection to a peer that takes packet 1 crashes the program.  It holds if the timeout, counted from now, ends before 2^63 seconds.)", "quantifier": "all configuration documents, peers, bytes received, schedules and failures of the network", "why_tests_cant": "all configurations, conversations and interleavings", "anchors": ["src/peer/msepe.rs: EncryptedStream::handshake", "src/config.rs: PeersConfig", "src/main.rs: Command::run", "src/magnet.rs: Magnet::get_torrent_file"]}
{"id": "C70", "title": "get contacts only peers named for the link, and writes the file if one of them delivers", "statement": "For a link with trackers, get contacts only peers that one of the link's trackers named in its answer to our announcement of the link's info hash (for UDP: a packet with the announcement's transaction ID from the address found for the tracker's host; for HTTP: the response to the announce URL), and no address twice; for a link without trackers only peers found by a DHT lookup of the info hash.  If a tracker of the link keeps naming an address whose peer delivers the metadata, and files can be written, get is successful whatever all others do, provided it comes to an end without the panic of C69.  If it finds nothing, every tracker has been asked, every address named has been contacted and each has failed.  Success writes exactly one file, with an info dictionary of the link's digest, the link's trackers and the DHT's nodes; failure writes nothing.", "quantifier": "all schedules, datagrams, HTTP and DHT responses, bytes from peers, links, templates, configurations and failures of the file system", "why_tests_cant": "the whole program under an arbitrary network and schedule", "anchors": ["src/main.rs: Command::run (Get)", "src/magnet.rs: Magnet::get_torrent_file, download_torrent_file", "src/tracker/mod.rs: PeerGetter::run", "src/dht/actor.rs: DhtActor"]}
{"id": "C71", "title": "Links and UDP trackers are read from their text as they were written", "statement": "A text magnet:PATH?QUERY, with any white space around it, letters of the scheme in either case, and with or without a fragment, is read as the names and values written in the query, non-ASCII characters and unescaped spaces included; a link written for an info hash (hexadecimal or base32), a name and trackers, each value escaped in whatever way, is read as exactly these; a text that does not start with magnet: or has no query is never accepted.  A UDP tracker accepted from a text is in normal form (host, port, path without dot segments, escaped), a tracker in normal form is read back from the text it prints, and so every UDP tracker accepted is.", "quantifier": "all texts", "why_tests_cant": "all strings, escapings and addresses", "anchors": ["src/magnet.rs: Magnet::from_str", "src/tracker/mod.rs: Tracker::from_str", "src/tracker/udp.rs: UdpUrl"]}
{"id": "C72", "title": "What comes from outside cannot forge the log", "statement": "Whatever a magnet link, a tracker, a peer or a DHT node says: every message of the log that speaks of it consists of printable ASCII and of characters that the standard library takes for printable, so it holds no control characters, does not end its line and sends no commands to a terminal.  A text in quotes can be read back from the log, and its end can be seen, whatever it holds; two extended handshakes that look the same in the log agree in everything but the numbers of the extensions.  In the path of a torrent file, which is not quoted, the torrent's name brings in no character below the blank (others, such as U+009B, it can bring in).", "quantifier": "all messages, texts, errors, packets, conversations and names", "why_tests_cant": "all strings a remote party can choose, in every message of the log", "anchors": ["src/peer/messages.rs: Display", "src/magnet.rs: Display for Magnet", "src/tracker/mod.rs: PeerGetter", "src/dht/actor.rs: LookupSession", "src/dht/messages.rs: ErrorResponse", "src/torrent.rs: TorrentFile::save, sanitize"]}
{"id": "C73", "title": "batch turns the links of a file into their torrent files", "statement": "Under every accepted configuration and whatever trackers, peers and the DHT do: if batch ends successfully, the lines of the file that are neither blank nor comments are magnet links, each was downloaded once, and each download wrote exactly one file, a torrent file for that link where the template says.  If it fails, then either the file cannot be read or one of those lines is no magnet link, and nothing was written at all; or every link was tried, and for some link nothing was written because saving failed, because it has no trackers and there is no DHT, or because all its trackers and every peer they gave (or every peer found on the DHT) were asked in vain.  It crashes only for the reason of C69.  If for every link of the file some tracker of it keeps naming a peer that delivers, and files can be written, batch is successful if it comes to an end.", "quantifier": "all file contents, accepted configurations, templates, networks and schedules", "why_tests_cant": "all files, all behaviours of trackers, peers and the DHT, all interleavings of the downloads", "anchors": ["src/main.rs: Command::Batch", "src/magnet.rs: parse_magnets_file, Magnet::download_torrent_file", "src/asyncutil/worker_nursery.rs"]}
{"id": "C74", "title": "HTTP tracker URLs and hosts are read as the URL Standard says, and announce URLs are well formed", "statement": "A text is accepted as an HTTP tracker iff it has the form http(s)://USER:PASSWORD@HOST:PORT/PATH?QUERY#FRAGMENT of the URL Standard, with white space around it, backslashes for slashes, any number of slashes and escapes as it allows; a host is an IPv6 address in brackets, an IPv4 address in decimal, octal or hexadecimal numbers, or a domain name, never a name that ends in a number; and it denotes exactly that host, port (the usual one is not kept), path without dot segments and query.  Its printed form is visible ASCII and is read back as the same tracker, and so is the URL that an announcement requests.", "quantifier": "all texts, all announcements", "why_tests_cant": "all strings, escapings, number formats and ports", "anchors": ["src/tracker/mod.rs: Tracker::from_str", "src/tracker/http.rs: HttpTracker, HttpTrackerSession::announce", "src/dht/mod.rs: InetAddr::from_str"]}
{"id": "C75", "title": "The log tells what peers and DHT nodes said", "statement": "Two messages of a peer are logged alike iff they agree in everything but the bytes they carry (of which the log tells the number), the choice of the pieces a peer has (of which it tells the number) and the numbers given to extensions; two handshakes iff they offer the same extensions and come from the same peer ID.  From the lines about a conversation with a peer can be read who said what in which order, and to which address; from the line about a datagram of a DHT node can be read which node sent it, and whether it was a reply (with how many peers and nodes, for which torrent), an error (with its code and message) or not to be understood.", "quantifier": "all messages, handshakes, conversations, datagrams and addresses", "why_tests_cant": "all pairs of messages and of conversations", "anchors": ["src/peer/messages.rs: Display", "src/peer/mod.rs: MessageChannel", "src/dht/actor.rs: LookupSession", "src/dht/messages.rs: Display for ErrorResponse, ErrorCode"]}
{"id": "C76", "title": "Command lines mean what the manual says", "statement": "A command line is accepted iff it is global options, the name of a subcommand, and the options and words of that subcommand, each option given at most once, in any of the usual spellings (--option=value, --option value, -ovalue, -o=value, -o value, combined short flags, words after --), with no two options that exclude each other, the right number of words, and values that their parsers accept; and then it means exactly what README.md says.  It does not matter how options are spelled, in which order they are given or where they stand between the words.  Every meaning can be written down, except for naming a configuration file while asking for none, two flags that exclude each other, an empty path, and a batch file named '-'.  The flags about encryption select what they are named after, and without them the configuration decides.", "quantifier": "all lists of arguments, all spellings and orders of options", "why_tests_cant": "all lists of texts, all permutations and spellings", "anchors": ["src/main.rs: Arguments, Command", "README.md: Usage"]}
{"id": "C77", "title": "The program writes only the torrent files its arguments ask for", "statement": "For every command line, configuration, file of links and behaviour of trackers, DHT nodes and peers: each file the program writes is a torrent file that the arguments ask for (by get, by a link in the file given to batch, or by query-peer), with the info hash and the trackers asked for, at the place that the template given makes of its name and info hash.  If it ends successfully, everything asked for was written, or the peers that the tracker answered or the DHT lookup found were printed.  If the arguments are refused or the configuration asked for cannot be had, nothing is printed or written.  If one of the link's trackers names a peer that delivers, a get that ends is successful.", "quantifier": "all argument lists, configurations, files and behaviours of the network", "why_tests_cant": "all inputs and all interleavings of network events", "anchors": ["src/main.rs: main, Arguments::run, Command::run", "src/magnet.rs", "src/torrent.rs: TorrentFile::save"]}
{"id": "C78", "title": "No failure is silent", "statement": "A run of get, batch, query-tracker, query-peer or query-dht that does not crash ends with a failure iff its log contains an error message.  Each error message is true: the configuration or the file of links named cannot be used, the download failed for the reason given, or the tracker, peer or DHT lookup failed.  Each warning names something that failed for the reason it gives.  If a get finds nothing, its log has a message about each source that was asked in vain.  The summary of a batch counts its links and the downloads that succeeded, and is given when all is done.  Each write is announced with its path before it happens, and a path is announced only if the torrent file with that name was to be written there.  The log says which configuration file was used and which link is fetched.  The log that is kept goes with the run: each run has a log and each log belongs to a run.", "quantifier": "all argument lists, configurations, files and behaviours of the network", "why_tests_cant": "all failures of all parts in all orders", "anchors": ["src/main.rs: main, Arguments::run, Command::run", "src/magnet.rs: Magnet::get_info_hash, download_torrent_file", "src/torrent.rs: TorrentFile::save"]}
{"id": "C79", "title": "The level asked for decides what is shown, and the log can be read line by line", "statement": "With --log-level L exactly the messages of this program of level L or graver are shown, and of other crates those of level INFO or graver whatever L is; a more talkative level shows all that a less talkative one does, in the same order; with OFF nothing of this program is shown; with the default level (INFO) everything but the local peer and which configuration is read.  What is written to standard error is one line per message: whether in colour or not, from its text each message shown can be read back with its time, level and text, in order, provided no text has a line break in it; and no message of src/main.rs, src/magnet.rs and src/torrent.rs has one if the arguments and the default path of the configuration have none.", "quantifier": "all levels, all sequences of messages, all times, with and without colour", "why_tests_cant": "all sequences of messages", "anchors": ["src/main.rs: init_logging", "src/main.rs: Arguments (log_level)"]}
{"id": "C80", "title": "What a peer can make the program keep is bounded", "statement": "Whatever a peer sends and however it arrives: while the program waits for more of a message it keeps less than 65535 bytes of it, so that the buffer of the connection never exceeds that and what one read delivers; no message has more than 65535 bytes; of the metadata at most 20 MiB and one message are received, over at most two connections, and metadata that is got has at most 20 MiB; and during the encryption handshake a bounded number of bytes is kept.", "quantifier": "all byte streams a peer may send, all cuts into reads, all moments of a connection", "why_tests_cant": "a bound on the memory an attacker can occupy is a statement about all byte streams of all lengths", "anchors": ["src/peer/mod.rs: MessageChannel, PeerConnection::get_metadata_info", "src/torrent.rs: TorrentInfoBuilder", "src/peer/msepe.rs: Handshaker::handle_input", "src/consts.rs: MAX_PEER_MSG_LEN, MAX_INFO_LENGTH"]}
{"id": "C81", "title": "A peer cannot make the program send more than it sends itself", "statement": "Over one connection the program sends a peer at most a fixed number of bytes (51354; 52530 with the encryption handshake) more than it has received from it, so it cannot be used to multiply traffic.  It asks for at most 1280 pieces, and besides those requests and one answer to each request of the peer it sends at most two messages; a peer is connected to at most twice.", "quantifier": "all behaviours of peer and network, all private keys and paddings, encrypted or not", "why_tests_cant": "all conversations of all lengths", "anchors": ["src/peer/mod.rs: InfoGetter::run, InfoGetter::connect, PeerConnection::get_metadata_info", "src/peer/msepe.rs: Handshaker"]}
{"id": "C82", "title": "DHT nodes cannot make the lookups send or keep much", "statement": "Every packet sent to the DHT is a query of at most 129 bytes.  A lookup sends at most one query for each bootstrap address and eight for each reply it takes, and one for each 26 bytes of the replies; each packet that arrives is taken by one lookup at most.  All lookups together therefore send at most 129 bytes for each 26 bytes received, besides 129 bytes for each bootstrap address of each request; and the nodes and peers a lookup keeps are bounded by the bytes of the replies.", "quantifier": "all histories of requests, packets, timers and failures of the DHT actor", "why_tests_cant": "a bound on traffic under attack is a statement about all histories", "anchors": ["src/dht/actor.rs: DhtActor, LookupSession, NodeSpace"]}
{"id": "C83", "title": "A UDP tracker cannot make the program send much", "statement": "Whatever a UDP tracker answers, and whenever, the packets sent to it within a time T are at most two for each announcement, one for each 15 seconds of T and two for each minute of T; each has 16 bytes, or 98 and the bytes of the URL options.", "quantifier": "all sessions: all announcements, packets, timers and failures in chronological order", "why_tests_cant": "all histories of a tracker and all timings", "anchors": ["src/tracker/udp.rs: UdpTrackerSession::announce, UdpTrackerSession::connect, UdpTrackerSession::chat"]}
{"id": "C84", "title": "A DHT lookup takes a bounded time", "statement": "As long as timers are looked at when they are due, a DHT lookup lasts no longer than the configured time to answer a query, and as much again for each reply it takes; so it lasts at most that time multiplied by one more than the number of bootstrap addresses and addresses of nodes that are listed to it.", "quantifier": "all histories of the DHT client with times in which no query is overdue when an event happens", "why_tests_cant": "all behaviours of all nodes and all timings", "anchors": ["src/dht/actor.rs: DhtActor::run, DhtActor::send_query, LookupSession::handle_message, LookupSession::handle_timeout"]}
{"id": "C85", "title": "Asking a tracker for peers costs it little", "statement": "Asking a UDP tracker for peers, and telling it afterwards that we have stopped, sends it four datagrams, one for each 15 seconds and two for each minute at most, whatever it answers and whenever; before peers have been returned it is two datagrams instead of four. Each has 16 bytes, or 98 bytes and the options for the URL. An HTTP tracker gets at most two requests, at most one before peers are returned, and no datagrams.", "quantifier": "all trackers, all histories of asking one (failures, timeouts, cancellations, answers), all times", "why_tests_cant": "all behaviours of trackers and all timings", "anchors": ["src/tracker/mod.rs: PeerGetter::run, TrackerSession::announce", "src/tracker/udp.rs: UdpTrackerSession::announce, UdpTrackerSession::chat"]}
{"id": "C86", "title": "A crash leaves no false torrent file", "statement": "If the program is stopped at any moment while it writes torrent files to different places, then each place holds what it held before, or the whole torrent file, or something that is not a bencoded document at all, so that no torrent client takes it for one. With a template that holds the info hash, what is new and is a bencoded document is the torrent file for the magnet link.", "quantifier": "all torrent files, all schedules of the writes, all moments at which the program is stopped", "why_tests_cant": "all crash points in all schedules", "anchors": ["src/torrent.rs: TorrentFile::save"]}
{"id": "C87", "title": "A nursery tells the truth about itself", "statement": "What a worker nursery and its stream say about themselves is true of what has happened: they are closed exactly if they were closed, shut down, or the last handle or the stream was dropped; exactly the first close and the first shutdown are told that they did it; a spawn is refused exactly if the nursery is closed; the lengths are the numbers of jobs not taken and outcomes not delivered; try_recv gives the outcomes in order, and Done only when nothing can come any more.", "quantifier": "all numbers of workers, all jobs, all interleavings of the workers with callers of the API", "why_tests_cant": "all interleavings of unboundedly many events", "anchors": ["src/asyncutil/worker_nursery.rs: WorkerNursery::close, WorkerNursery::is_closed, WorkerNursery::shutdown, WorkerNursery::is_shutdown, WorkerNursery::len, WorkerNurseryStream::try_recv, TryRecvError"]}
{"id": "C88", "title": "What the user says about encryption holds from the command line to the connection", "statement": "If query-peer succeeds, the peer was talked to over a connection of the kind the user asked for by flag or, without one, by the configuration: with --encrypt (always) encrypted; with --prefer-encrypt (prefer) encrypted unless the encryption handshake failed; else not encrypted. If the peer delivers the metadata over such a connection and the file can be written, query-peer succeeds. Every torrent file that get or batch writes comes from a peer that was talked to over a connection as configured, encrypted whenever the peer is known to require it.", "quantifier": "all command lines, configurations, environments, peers and all bytes that arrive in all pieces", "why_tests_cant": "all inputs to the program together with all behaviours of the network", "anchors": ["src/main.rs: Command::run", "src/peer/mod.rs: InfoGetter::run", "src/config.rs: GeneralConfig, CryptoPreference::get_crypto_mode", "src/magnet.rs: Magnet::get_torrent_file"]}
{"id": "C89", "title": "An error message tells what went wrong", "statement": "Two failures with peers, trackers, DHT nodes, magnet links, files of magnet links or downloads get the same error message only if they are the same failure with the same details (numbers, info hashes, texts of trackers, line numbers); the only things not told apart are a connection that breaks during the encryption handshake or later, the kind of tracker that complains, and details of messages that the log does not show. The messages about the asking of trackers also tell which tracker and which magnet link they are about, and which event was announced. Where a message says what was expected and what came, the two are not swapped.", "quantifier": "all errors the program can report, with all their details, all trackers the program accepts, all magnet links and peers", "why_tests_cant": "all pairs of errors; that texts built from untrusted parts stay unambiguous", "anchors": ["src/util.rs: ErrorChain", "src/peer/mod.rs: PeerError", "src/peer/messages.rs: HandshakeError, MessageError", "src/peer/msepe.rs: HandshakeError", "src/peer/extensions.rs: Bep10RegistryError", "src/torrent.rs: ConstructError, PushError, BuildError", "src/tracker/mod.rs: TrackerError, TrackerUrlError", "src/tracker/udp.rs: UdpTrackerError", "src/tracker/http.rs: HttpTrackerError", "src/magnet.rs: MagnetError, MagnetsFileError", "src/dht/messages.rs: ResponseError"]}
{"id": "C90", "title": "Everything random is fully random", "statement": "What the program chooses at random it chooses among all allowed values, and each value comes from exactly one sequence of answers of the random number generator: the secret number of an encrypted connection is any number of 160 bits, the padding of its first packet any 0 to 512 bytes, the padding of its third packet of any length from 0 to 512; the peer ID is the program's prefix followed by any letters and digits, the key any 32 bits, the port any port the configuration allows, the DHT node ID any 20 bytes. No answer is used for two purposes, nothing else is ever chosen, the packets stay within the lengths the protocol allows, only RC4 is offered, and the time allowed for the answer is the configured one.", "quantifier": "every sequence of answers of the random number generator, every allowed value, every configuration, info hash and answer of the peer", "why_tests_cant": "A test sees a few draws; that no allowed value is left out, none has two preimages (so that the choice is uniform) and none is out of range is a statement about 2^160 keys and all paddings.", "anchors": ["src/peer/msepe.rs: HandshakeBuilder::new, dh_exchange_timeout, build, gen_private_key", "src/peer/mod.rs: PeerConnection connect", "src/app.rs: App::new", "src/types.rs: PeerId::generate, Key", "src/config.rs: LocalPort::generate", "src/dht/actor.rs: DhtActor::new"]}
{"id": "C91", "title": "A few bad nodes cannot mislead a DHT lookup", "statement": "If at most seven of the nodes that are ever listed to a lookup are bad (down, lying or made up), nobody lists a good node under another ID, good nodes that are asked answer, those in the centre (with fewer than 8 nodes at their distance or closer) know each other and any other good node knows a closer good one, then a lookup to which some reply listed a good node asks all good nodes in the centre before it gives its result, and the peers they know are in the result. Both conditions are needed: eight bad nodes, or one entry that gives the address of a good node a false ID, can keep the lookup from asking the node closest of all.", "quantifier": "every network of good and bad nodes, every schedule of replies, losses and timeouts, whatever bad nodes answer, any number of lookups at the same time", "why_tests_cant": "It is a statement about every network and every behaviour of the bad nodes; a test plays one network with one script.", "anchors": ["src/dht/actor.rs: LookupSession, NodeSpace::add, NodeSpace::closest_unqueried, DhtActor::handle_message"]}
{"id": "C92", "title": "Without IPv6 the DHT goes on over IPv4", "statement": "The DHT client can be created exactly if a UDP socket for IPv4 can be bound; a system without IPv6 only leads to a warning. Then bootstrap nodes are used with their IPv4 addresses only, no query asks for IPv6 nodes and nothing is sent to an IPv6 address; and as long as no response lists IPv6 nodes unasked, there is not even an attempt. With IPv6 every query asks for nodes of both families. The client gets the datagrams that arrive at each of its sockets exactly once, in order, with their senders. (A response that lists IPv6 nodes nobody asked for makes a client without IPv6 try to send to them, log internal errors and end a lookup without asking the IPv4 node listed with them.)", "quantifier": "every outcome of binding the sockets, every order of arrivals and of serving the sockets, every schedule and every content of replies", "why_tests_cant": "A test runs on one system, which has IPv6 or not, and sees one order of packets at two sockets.", "anchors": ["src/dht/actor.rs: UdpHandle::new, UdpHandle::recv, UdpHandle::send, UdpHandle::using_ipv6, UdpSendError, DhtActor::new, DhtActor::resolve_bootstrap"]}
{"id": "C93", "title": "No DHT lookup is left waiting, whatever fails", "statement": "Every DHT lookup that the program begins ends exactly once, with peers or with an error, unless its task is aborted or it still waits for something that goes on. A client that cannot be created fails only the lookup that tried: the next one tries anew. If no bootstrap node has an address, all lookups that wait fail, and every later one fails at once; the client is not started again, even if names can be resolved later.", "quantifier": "every interleaving of lookups, creations, aborts and events of the client, every outcome of binding sockets and of name lookups", "why_tests_cant": "The failure comes at any moment relative to any number of concurrent lookups; and that something never happens again cannot be seen in a finite test.", "anchors": ["src/app.rs: App::get_dht_handle, App::get_peers_from_dht", "src/dht/actor.rs: DhtActor::new, DhtActor::run, DhtHandle::lookup_peers, UdpHandle::new"]}
{"id": "C94", "title": "Encryption takes the time for the key exchange, and fits into the time for the attempt only if that is longer", "statement": "A connection is encrypted only after the whole dh-exchange-timeout has gone by since the first packet, however quickly the peer answers, and only if the handshake-timeout of the attempt is not over by then; a peer that follows the protocol and keeps both deadlines does get an encrypted connection, which is as good as an unencrypted one. With a handshake-timeout below the dh-exchange-timeout (accepted by the configuration; handshake-timeout = 20 alone is enough) no connection is ever encrypted, and a peer that keeps the connection open uses up the attempt without an unencrypted one being tried, even where encryption is only preferred. Otherwise a silent peer is given up when the key exchange ends, and where encryption is preferred an unencrypted connection is tried and decides.", "quantifier": "all settings of both timeouts, all moments at which anything arrives, all bytes of the peer, all random numbers, all modes of encryption", "why_tests_cant": "That no peer whatsoever gets an encrypted connection ranges over all bytes and all arrival times.", "anchors": ["src/peer/mod.rs: InfoGetter::run, InfoGetter::connect", "src/peer/msepe.rs: EncryptedStream::handshake, Handshaker::handle_timeout", "src/config.rs: PeersConfig"]}
{"id": "C95", "title": "The log of the DHT client tells what happened", "statement": "The log of the DHT client has, in order, a line for each query (address, name under which the lookup knows it, torrent), for each query that could not be sent (address and the right one of three reasons), for each reply or timeout that ends a query (sender, name, and what came: the numbers of peers and nodes, the error message, why it cannot be read, or that nothing came), for each result (the peers that the request gets and its torrent), for each packet (its sender; a packet called ignored changes nothing and the reason given is right), for the outcome of the start, for each failure to receive, and for each name of a bootstrap node (with the address used, if any); and there are no such lines about anything else. When no query is outstanding any more, each line about a query to be sent is balanced by a line about its fate.", "quantifier": "all configurations of bootstrap nodes, all sequences of requests, packets, timers and failures, all contents of packets, all orders in which sessions are searched; the balance as long as no transaction ID comes again while in use", "why_tests_cant": "That no event goes unreported or is reported with another's name or torrent ranges over all interleavings of lookups.", "anchors": ["src/dht/actor.rs: DhtActor::run, DhtActor::send_query, DhtActor::handle_message, LookupSession::handle_message, LookupSession::handle_timeout, LookupSession::get_outgoing, LookupSession::get_result", "src/dht/mod.rs: InetAddr::resolve"]}
{"id": "C96", "title": "Answers cannot make the program contact more peers than they have room for", "statement": "A tracker cannot use the program to reach many others at little cost: the peers it gives take six bytes each of the one packet or body in which they arrive (a UDP tracker's also leave out the first 20), each tracker of a link is asked at most once, and get contacts at most one peer for every six bytes that the trackers of the link sent; without trackers, at most one for every six bytes that arrived from the DHT. There is no other limit: however many peers are asked for, an HTTP tracker can give any number of different ones, and all are taken.", "quantifier": "all links, configurations with at least one job, answers of trackers and nodes, peers and schedules; any number of peers", "why_tests_cant": "A ratio between what comes in and whom it makes the program contact ranges over all answers and histories.", "anchors": ["src/magnet.rs: Magnet::get_torrent_file", "src/tracker/mod.rs: PeerGetter", "src/tracker/http.rs: HttpAnnounceResponse", "src/tracker/udp.rs: UdpAnnounceResponse", "src/dht/actor.rs: LookupSession", "src/compact.rs: FromCompact, AsCompact"]}
{"id": "C97", "title": "The log of asking a tracker tells what happened", "statement": "With tracing on, the log of asking a tracker can be relied on: it is said that an announcement is sent exactly when it begins, with the tracker and the torrent it is for; the peers and their number are told exactly when they are returned, a failure to announce 'stopped' exactly if it fails and with its reason, giving it up exactly if it is given up, and a warning exactly if the tracker's response has it. For a UDP tracker every datagram is told beforehand as what it is: a request for a connection (said to be needed at first, or because the last one was granted a minute ago), the announcement that was said to be sent (after it was said that there is a connection, which is said exactly when a packet grants the one asked for last), or the last datagram again (said only after at least 15 seconds). Nothing else is said, with one message that comes too early: that the socket is connected to an address is said as soon as the socket is bound, even if connecting it then fails.", "quantifier": "all trackers, torrents, answers, packets, failures, times and schedules", "why_tests_cant": "Each message has to agree with what was sent and received before it, for every history and timing.", "anchors": ["src/tracker/mod.rs: PeerGetter::run, TrackerSession::start, TrackerSession::stop, TrackerSession::announce", "src/tracker/udp.rs: UdpTrackerSession, ConnectedUdpSocket::connect"]}
{"id": "C98", "title": "The log of fetching metadata from a peer tells what happened", "statement": "With tracing on, the log of fetching metadata from a peer can be relied on. It begins with the torrent and the peer. For every attempt it tells that it connects, that it has connected exactly if it has, and how far the encryption handshake went, if there is one: packet 1, the end of the time for packet 2, packet 3, that encryption was selected (exactly if what the peer sent confirms the key and selects RC4), and the end of the handshake (exactly if it succeeds). Then it tells the conversation: all messages received are listed, in order, and no others; all messages sent are listed, in order, and at most one more, which is the one that was being sent when sending failed; refusals of the peer's requests are announced. That encryption failed is said exactly if a second attempt is made without it, with the reason why it did; that the metadata was received exactly if it is returned. Two lines come too early: packets and messages are announced before they are sent, and that packet 2 has been received is said when its time is over, received or not.", "quantifier": "all peers, torrents, settings, random choices, data the peer sends and cuts of it, and outcomes of connecting and of every send", "why_tests_cant": "The log has to agree with the conversation for everything a peer may send and for a failure at any point of it.", "anchors": ["src/peer/mod.rs: InfoGetter::run, InfoGetter::connect, PeerConnection::send, PeerConnection::recv, PeerConnection::get_metadata_info", "src/peer/msepe.rs: HandshakeBuilder, Handshaker::handle_input, EncryptedStream::handshake"]}
{"id": "C99", "title": "The downloads of a batch do not get in each other's way", "statement": "In a batch several downloads go on at once, and what happens in one of them is independent of the others. Every download, taken by itself, goes as the download of its link alone could go (it is a run of `get` of that link) and ends as that does; nothing happens in a download before it begins. Nor are downloads held up by each other: what could happen next in the download of a link alone can happen next in the batch; and in which order two things happen in two downloads, or whether another download ends before or after, makes no difference. At any time at most `batch-jobs` downloads are in progress, and for them all together at most `batch-jobs` times the configured numbers of peers and trackers for each magnet link are being asked. Until the batch exits something can happen, however trackers, peers, the DHT and the file system answer, and there is no infinite run. All that is said of the torrent files and the exit status of a batch (C73) holds with the downloads in detail. There is one exception to the bound on peers: the tasks of a download that has ended are aborted, but that takes its time, so for a while more peers may be asked than the bound says.", "quantifier": "all lists of magnet links, configured numbers, interleavings of the downloads, their workers and what is left of ended ones, answers of trackers, peers and the DHT, and outcomes of saving", "why_tests_cant": "The number of interleavings of several downloads, each with its own workers for trackers and peers, is far beyond what can be tried.", "anchors": ["src/main.rs: Command::run (Batch)", "src/magnet.rs: Magnet::download_torrent_file, Magnet::get_torrent_file", "src/asyncutil/worker_nursery.rs: WorkerNursery, WorkerNurseryStream"]}
{"id": "C100", "title": "Before the program exits, every tracker that gave peers is told that we have stopped", "statement": "However many trackers are asked, for however many downloads: when the program exits, every tracker that has given peers by then has been told that we have stopped, and has answered or telling it has failed; or telling it was given up, and that not before shutdown-timeout has passed since the end of the command. As soon as all of them have been told, the program exits without waiting any longer; and when the time is over it can exit at once, whatever trackers do or do not. A tracker that gave no peers is never told that we have stopped, so one that was told that we have started, but had not answered when the download ended, is not told. There is one gap: if a tracker answers at the very moment when shutdown has found nothing to wait for, the program waits for telling it without any limit.", "quantifier": "all numbers of trackers, settings of shutdown-timeout, interleavings and times of what trackers do and of the steps of shutting down", "why_tests_cant": "It has to hold for every number of trackers and every moment at which they answer, the tasks run, the command ends and the time is over.", "anchors": ["src/main.rs: Arguments::run", "src/app.rs: App::shutdown", "src/tracker/mod.rs: PeerGetter::inner_get_peers", "src/asyncutil/shutdown_group.rs: ShutdownGroup"]}
{"id": "C101", "title": "A download takes no longer than its trackers and peers make it", "statement": "If each tracker is asked for at most dT (the announce-timeout) and each peer for at most dP, then a link with t trackers for which p peers are contacted has its result at the latest \u2308t/trackers.jobs-per-magnet\u2309\u00b7dT + \u2308p/peers.jobs-per-magnet\u2309\u00b7dP after the download begins (after the answer of the DHT, if it has no trackers), and as soon as the first peer has delivered the metadata the result is there, without waiting for anyone else. A batch of n links whose downloads take at most d each is over after \u2308n/batch-jobs\u2309\u00b7d. However tasks end, the result is always reached. There are downloads and batches that take exactly as long as the bound says.", "quantifier": "all links, numbers of trackers, peers and jobs, times dT, dP and d, outcomes and durations of tasks up to these, and schedules in which the program waits only while it has nothing to do", "why_tests_cant": "The order in which workers take tasks, and how long each takes, ranges over infinitely many schedules; that no worker is idle while tasks wait has to hold in each of them.", "anchors": ["src/magnet.rs: Magnet::get_torrent_file", "src/asyncutil/worker_nursery.rs: WorkerNursery", "src/main.rs: Command::run (Batch)", "src/tracker/mod.rs: PeerGetter::run"]}
{"id": "C102", "title": "DHT lookups do not get in each other's way", "statement": "However many DHT lookups the one client serves at a time, what a lookup asks, when it is over and what it finds depend only on what it hears itself: two lookups for the same infohash with the same bootstrap addresses, in whatever company, that get the same responses ask the same addresses in the same order and find the same peers and closest nodes; if they have heard the same and the socket took the same of their queries, then one has its result exactly if the other has. A lookup is over exactly when something has been heard about each query the socket took. A reply to an outstanding query, or the end of the time for it, always reaches the lookup that asked, in whatever order the client looks at its lookups, and each event concerns one lookup at most. (As long as no transaction ID is used again while its query is outstanding, which takes 2^32 queries, and the client is not stopped.)", "quantifier": "all pairs of runs of the client: events, numbers and kinds of other lookups, replies, garbage, timeouts, failures of the socket, iteration orders of the hash map", "why_tests_cant": "It compares every two executions (a hyperproperty): the other lookups, their interleaving and the iteration order of a hash map range over infinitely many possibilities.", "anchors": ["src/dht/actor.rs: DhtActor::run, handle_message, send_query, postprocess_session", "src/dht/actor.rs: LookupSession", "src/dht/actor.rs: TransactionGenerator"]}
{"id": "C103", "title": "A download that has its metadata lets go of everything else", "statement": "When a peer has given the metadata, the download stops what it is doing otherwise, whatever trackers and peers do or do not do and however many peers are waiting: the task that feeds peers, all the tasks that ask peers and all that ask trackers are gone after at most as many steps of the program and its runtime as there are tasks, and three more; nothing of it can go on forever, and nothing can end with a task left over. Once the download has given back its result no peer is handed over any more, and those being asked then and those that begin to be asked afterwards are together at most as many as may be asked at a time; likewise for trackers once the feeding task is gone. At no time are more asked than the limits allow. Everybody who is asked was handed over, and if there are trackers nobody is asked twice, before or after the metadata has come. And nothing is let go of too early: in a run of the whole program the asking of a tracker is dropped only when the download has its result, or when every tracker of the link has answered or failed.", "quantifier": "all runs of a download that ends with metadata, and all continuations: numbers of trackers and peers, limits, answers, failures, panics of tasks, and interleavings of the tasks, including steps that aborted tasks still take", "why_tests_cant": "It is about every interleaving of tasks that are being aborted with each other, from every state in which a download can succeed.", "anchors": ["src/magnet.rs: Magnet::get_torrent_file", "src/asyncutil/worker_nursery.rs: WorkerNursery::spawn, WorkerNurseryStream, Closer"]}
{"id": "C104", "title": "Nobody is told of a link that does not concern them", "statement": "In the course of `batch`, whatever is sent to a tracker goes to a tracker of one of the links and is a request to connect or an announcement of that link's info hash with our peer ID, key and port and what is configured; trackers of other links never hear of it (unless a tracker redirects the HTTP client, which follows on its own). Whatever is sent over the DHT is a query for the info hash of a link without trackers: a link with trackers is never mentioned there. Every peer spoken to was named for the sake of one of the links, by one of that link's trackers in answer to our announcement or, if the link has no trackers, in the DHT's answer to the lookup of that link; it is sent our handshake with that link's info hash, our greeting, that we have nothing, requests for pieces of metadata and refusals, and nothing else. The name given in a link is told nobody: with other names, the same can happen with the same sent to everybody, the same results and the same exit status. If the file of links cannot be read, has a bad line or no links, nothing is sent at all.", "quantifier": "all files of links, configurations with at least one job at a time, and all interleavings of the downloads with what trackers, DHT nodes and peers say and do", "why_tests_cant": "It is about all that is sent in every interleaving of any number of downloads that share one DHT client, whatever trackers, nodes and peers answer.", "anchors": ["src/main.rs: Command::run (Batch)", "src/magnet.rs: Magnet::get_torrent_file", "src/app.rs: App::get_dht_handle, App::get_peers_from_dht", "src/tracker/mod.rs: PeerGetter::run", "src/peer/mod.rs: InfoGetter::run", "src/dht/actor.rs: DhtActor"]}
{"id": "C105", "title": "The same link gives the same torrent, whoever delivers it", "statement": "Take any two runs of the program, with any arguments, configurations, clocks, trackers, peers and DHT, and a file written by each. If both are for the same info hash, then either their info dictionaries are two different texts with the same SHA-1 digest, or the files have the same info dictionary and differ at most in trackers, creation date and nodes; with the same template they are at the same place; if the links have the same trackers they differ at most in creation date and nodes, and if there are any trackers only in the creation date: with the same date, too, the files are the same byte for byte. And if the second run is asked for everything the first is asked for, in whatever order and by whatever command, and ends successfully, then every file of the first has such a counterpart, at the same place.", "quantifier": "all pairs of runs of the program and all pairs of files written by them", "why_tests_cant": "It compares all pairs of runs, whichever of the trackers and peers answer, in whatever order, and whatever they send.", "anchors": ["src/magnet.rs: Magnet::get_torrent_file, Magnet::download_torrent_file", "src/peer/mod.rs: InfoGetter::run", "src/torrent.rs: TorrentFile, TorrentInfoBuilder::build, PathTemplate::format"]}
{"id": "C106", "title": "If everybody falls silent, the batch still comes to its end", "statement": "Take any run of `batch` and stop it anywhere before the program has exited, with any number of downloads, tracker conversations, DHT lookups and peer tasks under way. If from then on nothing comes from the network any more (no tracker answers, no packet reaches the DHT client, no peer accepts a connection), there is always something that the program can still do by itself or a time limit that can end, whatever it does this cannot go on for ever, and so it exits. Assumed: no peer contacted so far stalls after having agreed to talk about the metadata (C59), no number of jobs in the configuration is 0, and the DHT client does not use up its 2^32 transaction ids.", "quantifier": "all runs of a batch, all points in them, and all continuations in which nobody answers", "why_tests_cant": "It speaks of all interleavings of all conversations of all downloads and of what remains possible from every one of the states they lead to.", "anchors": ["src/main.rs: Command::run", "src/magnet.rs: Magnet::get_torrent_file, Magnet::download_torrent_file", "src/tracker/mod.rs: PeerGetter::run", "src/dht/actor.rs: DhtActor::run", "src/app.rs: App::get_peers_from_dht"]}
{"id": "C107", "title": "Peers that stall cannot keep a download from its file, unless there are as many of them as peers asked at the same time", "statement": "Let a download be anywhere in its course. Say that at some addresses there are peers that stall after having agreed to talk about the metadata, fewer addresses than peers are asked at the same time; that nobody else stalls; and that some peer found on the DHT or named by a tracker of the link, at another address, serves the metadata in whatever way it may behave. Then, until there is a result, the download can go on without any of the stalling peers doing anything; it cannot go on for ever; and the result is a torrent file, never 'no peers gave the metadata'. The bound is sharp: if the first peers found on the DHT stall and they are as many as are asked at the same time, the download never has a result, whatever the others would serve.", "quantifier": "all magnet links, peers, behaviours of peers, answers of trackers and of the DHT, numbers of jobs, and all runs of a download", "why_tests_cant": "The claim is about every schedule of the jobs and every choice of stalling peers; a test can stall one peer in one schedule.", "anchors": ["src/magnet.rs: Magnet::download_torrent_file, Magnet::get_torrent_file", "src/asyncutil/worker_nursery.rs: WorkerNursery, WorkerNurseryStream", "src/peer/mod.rs: InfoGetter::run", "src/config.rs: PeersConfig"]}
{"id": "C108", "title": "Links that get stuck do not hold up the other links of a batch, unless there are as many of them as downloads run at the same time", "statement": "Let a batch be anywhere in its course. Say that some of its links are stuck, fewer than downloads run at the same time, and that every other link can be served in the sense of C107. Then, until every other link is over, the batch can go on without anything happening to the stuck links; and, if no peer drives the encryption handshake into its arithmetic overflow and saving does not panic, it can be brought to a point at which every other link has got its torrent file and has ended as saving it did, again without anything happening to the stuck links. The bound is sharp: as long as none of the first links, as many as downloads run at the same time, is over, no other link is begun.", "quantifier": "all lists of magnet links, sets of stuck links, behaviours of peers, answers of trackers and of the DHT, ends of saving, numbers of jobs, and all runs of a batch", "why_tests_cant": "The claim is about every interleaving of all the downloads of a batch and every choice of the links that are stuck; a test can block one link in one schedule.", "anchors": ["src/main.rs: Command::run", "src/magnet.rs: Magnet::download_torrent_file, Magnet::get_torrent_file", "src/asyncutil/worker_nursery.rs: WorkerNursery, WorkerNurseryStream", "src/config.rs: GeneralConfig (batch_jobs)"]}
{"id": "C109", "title": "How many jobs run at the same time, and in what order things happen, does not change what is got", "statement": "Take two runs for the same magnet link, with any numbers of trackers and peers asked at the same time, whatever happens in them and in whatever order. Say that the DHT and the trackers answer the same in both, that no tracker's task panics, and that a peer address named for the link delivers the metadata in both runs or in neither. If both have a result, and none panicked, then both got a torrent file with the same info hash, trackers and nodes, or both found nothing, or both failed with the same DHT error. Take two runs of a batch of the same links, with any numbers of jobs, for each of whose links this is so and saving ends the same, and in which no peer drives the encryption handshake into its arithmetic overflow: every link that is over in both ended the same in both; and, if saving does not panic, both exit with the same status if they exit.", "quantifier": "all magnet links and lists of them, numbers of jobs of both runs, behaviours of peers, answers of trackers and of the DHT, ends of saving, and all pairs of runs", "why_tests_cant": "The claim compares any two interleavings under any two settings of the job numbers; a test compares a few schedules that the runtime happens to choose.", "anchors": ["src/magnet.rs: Magnet::get_torrent_file, Magnet::download_torrent_file", "src/main.rs: Command::run", "src/asyncutil/worker_nursery.rs: WorkerNursery, WorkerNurseryStream", "src/config.rs: GeneralConfig (batch_jobs), PeersConfig (jobs_per_magnet), TrackersConfig"]}
{"id": "C110", "title": "One lost datagram does not lose a UDP tracker, two do", "statement": "Ask a UDP tracker for peers over a network that loses some of the datagrams (or their answers) and answers the others within a delay of less than 15 seconds, with an announce-timeout of at most 60 seconds. Asking comes to an end after at most 17 events and within the announce-timeout. If peers are returned, it is after the waits for the datagrams lost (15 seconds for the first of a request, then 30, then 60) and at most two delays; if not, that time is over the announce-timeout, and the error says that the time is up. In particular, with the default configuration, a tracker that answers within 7 seconds has its peers returned within 29 seconds if at most one datagram is lost, and no peers are returned if two are. A datagram that comes twice, or too late, is not tolerated: if the answer to the request for a connection is delivered again while the answer to the announcement is awaited, asking fails; so a tracker that takes 16 seconds to answer fails even if nothing is lost and there would be time.", "quantifier": "all trackers, settings of the announce-timeout up to 60 seconds, delays below 15 seconds, choices of the datagrams that are lost, answers and transaction IDs", "why_tests_cant": "every pattern of losses and delays, and waits of up to a minute", "anchors": ["src/tracker/udp.rs: UdpTrackerSession::announce, UdpTrackerSession::connect, UdpTrackerSession::chat", "src/tracker/mod.rs: PeerGetter::run", "src/config.rs: TrackersConfig (announce_timeout)"]}
