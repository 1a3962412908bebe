# Formal model of demagnetize-rs: design

This directory contains a Lean 4 model of jwodder/demagnetize-rs (the source in
`/repo`, version 0.7.0) and proofs about it.  `properties.jsonl` lists the
properties in English, `MANIFEST.json` says which theorem proves which
property, `seeded/LOG.jsonl` records the mutation experiments.

## Layout

* `lean/Verif/Model/*.lean` – definitions only: the code of `/repo`, function
  by function, each definition citing the file and lines it models.
* `lean/Verif/Spec/*.lean` – small specifications written without the model
  (e.g. "the big-endian value of a list of bytes", "the bencoding of a value").
* `lean/Verif/Lemmas/*.lean` – helper lemmas.
* `lean/Verif/Props/*.lean` – the property theorems, one group per file, each
  with `example`s showing that its hypotheses are met by concrete data.

## Modelling conventions

* Bytes are `Nat`-valued `UInt8` lists, byte buffers are `List UInt8`; `String`s are
  `List Char` (a Rust `str` is a sequence of Unicode scalar values, exactly as
  Lean's `Char`).  Where the code looks at UTF-8 bytes, the model encodes
  explicitly.
* Rust `Result` is `Except`; every error variant that callers can tell apart
  is a constructor.  Panics (`expect`, `unwrap`) are explicit error values, so
  that their unreachability is a theorem.
* Machine integers are `Nat`/`Int` together with the range checks the code
  performs, or `UInt8`/`BitVec` where wrapping matters.
* Asynchronous code is a labelled transition system: a state, a set of events
  (what the network, the clock, the scheduler or the peer may do) and a step
  function; a theorem "in every schedule" quantifies over all lists of events.
* External code whose result the code merely uses (SHA-1, random numbers, URL
  parsing, DNS, the clock) is a parameter of the model: theorems hold for every
  value of the parameter, plus explicitly stated hypotheses where necessary.
  External code whose behaviour a property depends on (bendy, data-encoding,
  form_urlencoded, LengthDelimitedCodec, RC4, parts of std) is modelled
  itself; see the trusted base.
* Theorem names ending in `_partial` prove a weaker statement than the property;
  the full statement is given beside them, together with a theorem that it
  fails (with a concrete run or input) where it does.

## Plan per property

| id | what is modelled | how it is proved |
|----|------------------|------------------|
| C01 | `InfoHash::from_str`/`Display`; data-encoding's hex and base32 decoders written out | round trip by induction on bytes; exact characterisation of accepted strings |
| C02 | `AsCompact`/`FromCompact` for addresses and nodes | round trip; induction on chunks |
| C03 | `CoreMessage::encode`/`decode` | case analysis on ids, BE integer lemmas |
| C04 | `Handshake` | list splitting |
| C05 | `Extension`, `ExtensionSet` | bit vectors, testBit extensionality |
| C06 | `Bep10Registry` | invariant by induction on the call history |
| C07 | LengthDelimitedCodec framing used by `MessageChannel` | incremental decoder = whole-stream decoder, by induction on reads |
| C08 | `MetadataMessage` over the bencode model | round trip |
| C09 | `ExtendedHandshake` over the bencode model | round trip |
| C10 | bendy's decoder as used (`decode_bencode`) | mutual induction on values |
| C11 | `TorrentInfoBuilder` | arithmetic; invariant over pushes |
| C12 | `TorrentInfoBuilder::build` with SHA-1 a parameter | invariant over pushes |
| C13 | `From<TorrentFile> for Bytes` | equation with the bencoding of an explicit value |
| C14 | `get_metadata_info` as a transition system | induction over peer messages; conversely, induction over the conversations described, with the program in step (Props/Exact.lean) |
| C15 | `PathTemplate::from_str`/`format` | induction over template items; a malformed template is malformed in one place, so that the error is determined |
| C16 | `sanitize` | induction |
| C17 | `TorrentFile::save`'s path computation | expected to be false for `..`; prove what holds, witness for the rest |
| C18 | `Magnet::from_str` over the list of query pairs, and with `Url::parse` | induction over pairs; the accepted texts characterised by a grammar |
| C19 | `parse_magnets_file` | induction over lines |
| C20 | `Command::run` result computation | induction over outcomes |
| C21 | request encoders | offset lemmas and an independent option reader |
| C22 | response decoders | round trip and rejection |
| C23 | `connect`/`announce` packet handling | case analysis; error packets violate it: witness |
| C24 | `UdpTrackerSession` with a clock | invariant over events |
| C25 | `chat` timeouts | arithmetic |
| C26 | query construction with form-urlencoding | round trip against an independent decoder |
| C27 | `HttpAnnounceResponse` decoding | structural |
| C28 | `UniqueByStream` | induction |
| C29, C30 | `WorkerNursery` transition system | invariants over all schedules |
| C31, C32 | crypto decision logic | case analysis over all inputs |
| C33 | `Handshaker`, `EncryptedStream::handshake` | chunk independence by induction; how the handshake ends and what the link delivers afterwards, from the list of reads (`Spec/LinkEnds.lean`) |
| C34 | DH arithmetic, `biguint2bytes` | modular exponentiation, BE encoding lemmas |
| C35 | `EncryptedStream` | invariant over write/read schedules |
| C36 | XOR distance | bit-vector lemmas |
| C37, C38, C47 | `NodeSpace`, `LookupSession` | invariants; C38 and C47 are expected to fail in corner cases: witnesses + partial theorems |
| C39, C40 | DHT actor transition system | invariants and a termination measure; the parts that fail if a transaction ID comes again while a query to the same address is outstanding are conditional on `NoReuse` |
| C41 | `TransactionGenerator` | injectivity modulo 2^32 |
| C42 | DHT message codec | over the bencode model |
| C43 | `LocalPort` | character-level parser |
| C44 | `DisplayJson`, `write_json_str` | independent JSON string reader |
| C45 | `PeerId::generate`, `build.rs` | list lemmas |
| C46 | `Magnet::get_torrent_file` | transition system |
| C48 | `UdpUrl`, `Tracker::from_str` with `Url::parse` | round trip; the accepted texts characterised by a grammar (`Spec/UrlWhole.lean`) |
| C49 | `PeerGetter` | transition system |
| C50 | `ShutdownGroup` | transition system |
| C51 | `InfoGetter::connect` | transition system over received messages |
| C52 | `check_bencode_dict` | over the bencode model |
| C53 | `TryBytes` | induction |
| C54 | `InetAddr` | induction |
| C55 | `CommaList`, `ErrorChain` | induction |
| C56 | DHT queries sent during a lookup | invariant over events |
| C57 | std's parsers of IP and socket addresses | grammar in `Spec/IpText.lean`; soundness and completeness by induction on groups |
| C58 | `download_torrent_file`: C46, C51, C14, C12 and C13 put together | composition of their theorems |
| C59 | the same, as to its end | expected to be false (no timeout after connecting): refuted for a concrete peer; partial theorem without such peers, and an exact account of which peers keep a task waiting (Props/Exact.lean) |
| C60 | `Config` and serde's derived reading of it, from a TOML value tree | each setting characterised; composition |
| C61 | `Arguments::run`, `Config::load` | case analysis over all options and file systems |
| C62 | `App::get_dht_handle`, `App::shutdown` as a transition system | invariant over all histories |
| C63 | `std::fs::write` by several tasks | invariant over all schedules; same place: witness, and an exact condition: the last to open the file writes all of it (invariant), and any call may be the last (a schedule) |
| C64 | `Command::Batch` with the downloads it runs (C20, C58, C60, C63) | composition; expected to be false without `{hash}`: witness |
| C65 | `InfoGetter::connect` over `EncryptedStream::handshake` and the stream it leaves, from the reads of the network on | composition of C31, C33–C35 and C51; refinement of the unencrypted conversation |
| C66 | `PeerGetter::run` over `UdpTrackerSession` and `HttpTrackerSession`, down to datagrams and URLs | invariant over the events; composition of C21–C27 and C49 |
| C67 | `Command::QueryTracker` and `QueryDht`, from the datagrams and replies to the bytes of the standard output | composition of C66 and C39 with C44 and C57; induction on the lines |
| C68 | `Command::QueryPeer`, from the argument and the bytes of the network to the file | composition of C13, C31, C51, C57 and C65 |
| C69 | every place where the code panics, in particular `Instant::now() + timeout` in `EncryptedStream::handshake`; `getTorrentFile`, `Batch`, `QueryPeer` under accepted configurations | the panics of C51, C58, C60, C64 and C68 traced to their cause; expected to be false for excessive timeouts: witness |
| C70 | `Command::Get` as a whole (`Model/Get.lean`): `getTorrentFile` with its tracker tasks being conversations of C66, its peer tasks those of C51, the DHT that of C39, then `save` | contacts traced back through `resolve_contacts`, `ask_peers` and `answer_spec`; success from `resolve_nothing` and `download_finds`; what is written from `download_writes` |
| C71 | `Url::parse` (URL Standard, schemes that are not special) in front of `Magnet::from_str` and `Tracker::from_str` | escaping does not change what a query decodes to; the IPv6 parser accepts exactly the texts of C57's specification; normal forms are fixed points |
| C72 | all `log::…!` statements that speak of links, trackers, peers and nodes, the `Display` of what they print, the texts of all errors | all literals are ASCII, everything from outside goes through `{:?}` (escapes); quoting has a reader that is its inverse; tags of the fields of a handshake are prefix-free |
| C73 | `Command::Batch` as a whole (`Model/BatchGet.lean`): bytes of the file, links, the nursery of downloads, each download a run of `get` (C70) with its own clock and file system | composition of the characterisations of links (C18), files (C19), exit status (C20), configuration (C61) and `get` (C70) |
| C74 | `Url::parse` for special schemes, `Host::parse`, `Display for Url`, `get_announce_url` | the accepted texts characterised by a grammar (`Spec/UrlHttp.lean`), part by part; normal forms are fixed points of printing and reading |
| C75 | the log statements about peers and DHT nodes, `Display` of messages, handshakes and errors | the texts are taken apart from the left, separator by separator: equal texts have equal parts; what the log must tell is `Spec/LogFaithful.lean` |
| C76 | `Arguments::parse`: the scanner of clap for the declared options, conflicts, defaults, and the parsers of the values | the scanner is shown to invert the relation `Spelled` of `Spec/CommandLine.lean` (induction over the arguments), whose options are transcribed from README.md; conflicts, defaults and words case by case; permutations preserve the meaning |
| C77 | `main` for all five commands, from the arguments to the writes and the standard output | composition; what is asked for is `Spec/Program.lean`, over the meaning of the command line of C76 |
| C78 | the messages of main.rs, magnet.rs and torrent.rs with their levels, in the order of a run of the program (for `batch`: any interleaving of the downloads) | over the runs of C77, case by case; what a message asserts is `Spec/ProgramLog.lean`, in terms of the files, the command line and the answers of the network; messages and writes in one list (`Model/Moments.lean`): a prefix of an interleaving is an interleaving of prefixes |
| C79 | `init_logging`: the filter by level and target, the text of a record, the standard error | the lines written are read back by a reader of its own (`Spec/LogLevel.lean`); that no message breaks a line is shown from the arguments |
| C80 | the states of the read buffer of a channel and of the encryption handshake, for every way of reading (`Model/Held.lean`); the conversation of C14/C51 | invariants over the reachable states; sums over the conversation; until packet 2 the buffer is unbounded (counterexample) |
| C81 | all bytes one connection sends (`visitChan`, `wireBytes`) | by induction over the conversation: each reject is paid for by the request it answers, which is at least as long; the rest is bounded by the number of pieces |
| C82 | the packets of the DHT actor (`packetsOut`), the replies its lookups take (`repliesTaken`), what a lookup keeps | an invariant of the actor: every query of a lookup is paid for by a bootstrap address or by a node listed in a reply it took (26 bytes at least), and every arriving packet is taken by one lookup at most |
| C83 | the packets of a session with a UDP tracker (`udpSent`) | an invariant with two counters, of the waits for answers and of the connections that have run out, each paid for by the time it took |
| C84 | runs of the DHT client with times (`DhtTimed`), in which no timer is overdue when an event happens | an invariant: queries are sent at the start, or with a reply, which comes no later than the time to answer after the queries before it; a lookup in progress has an outstanding query |
| C85 | the runs of asking a tracker of C66, with the moments of their events | the session inside makes a run of C83 with at most two announcements, at these moments and with these datagrams; the bound of C83 |
| C86 | the writes of C63, cut off at any event; the bencode of C10 for all values, whatever the order of keys | no encoding of a value is a proper prefix of another (mutual induction), with the invariant of C63 |
| C87 | the answers of the query functions as functions of the shared state of C29/C30; what happened is the trace | invariant of C30; a nursery whose workers have all ended stays as it is (induction over the run) |
| C88 | the whole program of C77 with the wire level of C56 | C77's reading of the command line and configuration, composed with C35's specification of the attempts |
| C89 | the error texts of C72 with the causes appended by `ErrorChain`; texts of other libraries are parameters, assumed only not to equal two texts of the program | the beginnings of the messages are apart (none is the start of another), and each detail can be read back: decimals and hexadecimals by the character after them, quoted texts by C72, URLs by the round trip of C74 |
| C90 | The generator is a tape of answers, each with the kind of question it answers; the functions that draw are state transformers on it (`Model/Random.lean`) | `DrawnOnce` (Spec/Random): sound, looks only at what it takes, and a bijection between sequences of draws and allowed values; composed by a bind lemma whose side condition is that the result determines the intermediate draw. `handshake_drawn`, `identity_drawn`, `nodeId_drawn`; sizes of packets `handshake_sizes`; bridge to the connections of C33-C35 `handshake_chances`. That the generator's answers are uniform and independent is trusted (crate `rand`). |
| C91 | The actor of C37–C41 (`Model/Dht.lean`); a network is a list of good nodes and a list of bad ones that contain all that is listed, with assumptions on replies of good nodes only (`Spec/DhtNetwork.lean`) | The first good node in the ranking of known nodes has at most seven (bad) nodes before it, so it has been asked; if it is not in the centre it listed a closer good node, a contradiction; so it lists the whole centre, of which each has fewer than 8 known nodes before it. `eight_mislead` and `false_name_misleads` are concrete runs |
| C92 | `UdpHandle` with the datagrams that wait in its sockets, binding as a parameter, `recv` with either choice of `select!` (`Model/DhtSockets.lean`); the actor of C37–C41 started with its result | Conservation of datagrams per family by induction over events; the queried addresses of a lookup are those of bootstrap nodes and of listed nodes (invariant of C38), both IPv4 here; `unasked_ipv6` is a concrete run |
| C93 | The cell of C62 with the client of C37–C41 and C92 behind the handle in it (`Model/AppDht.lean`) | Conservation of lookups by induction over events, from the invariant of the client (C40); a state with a dead client is closed under all steps |
| C94 | The network of C65 with the moments of all arrivals; both deadlines computed from the configuration (`Model/ConnectTime.lean`) | Induction over the reads before the first deadline: the handshake takes no decision in them; then `encrypted_as_plain` (C65) for the good case |
| C95 | The log statements of the client, for each event of C39 (`Model/DhtLog.lean`) | Induction over the events with the invariant of C39: what each event logs is what `told` says of its effects; counting for the balance |
| C96 | The runs of `get` (C70), of asking a tracker (C66) and of the DHT client (C39); only the counting of bytes is new (`Spec/Reach.lean`) | Sizes of the encodings that the decoders accept (C22, C27, C42); each tracker at most once from the invariant of the resolution; a family of responses for the converse |
| C97 | The log statements of asking a tracker, for every event of the conversations of C66 (`Model/AskLog.lean`) | Case analysis for the messages of one event; for UDP an invariant that relates the state of the session to the messages and datagrams so far |
| C98 | The log statements of fetching metadata from a peer, for the functions of C12, C27 and C65 (`Model/PeerLog.lean`) | Every function is compared with its log: what it says is what it does, plus the next send if that does not work (obtained by running it on a network where it does); for the encryption handshake by induction over the reads |
| C99 | A batch whose downloads are all modelled in detail, each with the workers of its own, also those left over after it has ended (`Model/Fleet.lean`), and the same with the tasks and the one DHT client that they share (`Model/FleetGet.lean`) | Invariant: the part of the trace that belongs to one download is a run of the download alone, and the downloads in progress are those that workers of the batch run; steps of different downloads commute as they change different parts of the state; a lexicographic weight decreases; the detailed batch refines that of C73 |
| C100 | All the askings of trackers of a run of the program with the one group of tasks they share and `shutdown` (`Model/Closing.lean`; the machines of C49 and C50 together) | Invariant: the tasks left in the group are exactly those of askings that have given peers and not ended; every asking taken alone is a run of C49; exit is constructed step by step |
| C101 | Timed runs of a download and a batch (`Spec/DownloadTime.lean` over the model of C46, C20): time passes only while there is nothing to do, and no task is overdue | Invariant of a nursery (`Lemmas/NurseryTime.lean`): worker `w` has begun its `k`-th job by `A + (k-1)·D` while jobs wait, so by counting (pigeonhole) the last job begins by `A + ⌊(n-1)/W⌋·D`; progress and termination of C46, C20 |
| C102 | The model of C37–C41; what a single lookup hears and what the socket does with its queries, without transaction IDs (`Spec/DhtAlone.lean`) | The invariant of C39 gives the state of a lookup as a function of the responses to it; counting of outstanding queries by induction over the effects; uniqueness of requests and lookups by an invariant |
| C103 | What is left of a download with metadata: the feeding task, which is aborted, and the workers of the two nurseries, which are aborted when their streams are dropped, each going on for an arbitrary while (`Model/Aftermath.lean`, on top of the model of C46) | Invariant over the steps; counting of the workers that have not ended; conservation of jobs; a lexicographic measure; the run to the end is constructed step by step. `trackers_patience` is about the runs of the whole program on the network (the model of C104) |
| C104 | The batch with the state of every conversation in it: the tracker tasks of C66, the DHT client behind its cell, the visits to peers, each with events of its own (`Model/NetBatch.lean`) | Every step of the composite is a step of C99's batch or of one conversation; an invariant ties the conversations, the DHT client's run and the batch's run to the trace; then the theorems about each.  For names: a map that leaves them out commutes with every step |
| C105 | Two runs of C77's program | What a run writes is a function of the info dictionary, the link, the nodes and the date (C70, C68); canonical bencode is injective (C10), so equal encodings are equal dictionaries, and different ones with the digest asked for are a collision |
| C106 | The batch with all its conversations (C99, C104) and the events that need nobody else | C99's progress gives an event of the program; the end of a task it waits for is traced to a time limit of the tracker conversation, to a timer or a lookup of the DHT client (as many queries as 8 for each packet, so transaction ids do not repeat), or to C59; C99's measure, extended by lookups, DHT work and tracker conversations, decreases lexicographically |
| C107 | A download with its peer tasks (C59), addresses of peers that stall, and how each tracker answers | The nursery's invariant: with fewer jobs held by stallers than workers, either some event is possible without them or the source of peers is exhausted and everybody else has been asked and failed, which a reliable peer contradicts; C59's well-founded measure gives the end; for sharpness, the first jobs to run are the first accepted, so only stallers ever run |
| C108 | A batch with all that happens in its downloads (C99) and their peer tasks, the numbers of the stuck links, and how the DHT, trackers and saving answer for each link | An invariant says where the job of each link is: waiting, in a worker's hands, under way, or over; the numbers under way differ, so fewer stuck links than workers leave a worker free for the queue; a link under way that can be served goes on by C107; C99's well-founded measure gives the end, and C58 excludes the panic; for sharpness, the first jobs to run are the first accepted |
| C109 | Two downloads (C58) or batches (C108) with their peer tasks, with different numbers of jobs, local IDs and orders of events, in the same surroundings | A run that finds nothing has contacted every address named for the link (C107) and all of them failed, so that nobody delivered to the other one; the DHT error depends on the surroundings alone; a batch exits when all links are over, with a status that tells whether all ended well |
| C110 | Asking a UDP tracker (C66) with a clock and a network that loses datagrams: sending takes no time, timers fire when due, a datagram is lost or answered after a delay | The states reached are six waiting states with exact clocks, found by an invariant by induction over the run; progress in each of them, and a bound on the number of events; the default configuration by arithmetic.  Delays of 15 seconds and more are shown to be fatal by two families of runs; limits over 60 seconds (connections that expire) are outside |

## Trusted base

### Lean

* The kernel of Lean 4.33.0.  Mathlib is used for a few list lemmas, imported one module at a time.
* The axioms of the theorems are among `propext`, `Classical.choice` and `Quot.sound`.  There is no `axiom`, `sorry`,
  `admit`, `native_decide`, `bv_decide`, `implemented_by` or `unsafe` in the project.  `decide +kernel` (used for concrete
  examples) is evaluated by the kernel.  Two examples of long RC4 and SHA-1 runs are `#guard`s: these are evaluated by the
  compiler and are tests only; no theorem depends on them.

### That the model is the code

The model was written by reading `/repo`; nothing checks mechanically that it agrees with the Rust code.  Every definition
cites the lines it models and says where it simplifies.  To compare the two where that is possible, the unit tests of `/repo`,
which the code passes, are run on the model: 134 of the 136 unit tests appear as `example`s, in `Verif/Tests/*.lean` and (those of
the encryption handshake) in `Verif/Props/Mse.lean`, each with the lines of the test.  Left out are `nursery_is_send`, which is about
types of Rust, and `test_prime_modulus`, which says that a constant can be read.  Where a test compares the text of an error of bendy
or of a template, only the error is compared.  Tests of nurseries and shutdown groups are run in one order of events.

### External code that is modelled (from its documentation and knowledge of its source)

* bendy 0.6.1: integers and string lengths without superfluous zeros, no negative zero, keys strictly increasing when
  reading and when writing, a limit on the nesting depth (default 2048), dropped list and dictionary decoders consume the
  rest, errors are latched, Rust integers are read with a range check, `String` needs UTF-8.
* data-encoding 2.11: hexadecimal without regard to case; base32 in upper case, with padded blocks.
* tokio-util `LengthDelimitedCodec` and `Framed`: buffering, length limit, end of file.
* form_urlencoded: serialiser and parser; percent_encoding.
* url 2.5: the basic URL parser of the URL Standard, but for `file:` URLs, and its serialiser.  For schemes that are not special, an
  empty host is no host and user names and passwords are read and dropped (nothing looks at them); the crate takes some texts
  with a backslash behind the port (`udp://h:80\x`) or with a user name and no host that are refused here.
* log, fern, chrono, anstyle and anstream: a record passes iff its level is within that set for the longest module path given that is a
  prefix of its target (here only `demagnetize`), else within the default; it is written as the formatted text and a newline; `%H:%M:%S`
  gives two digits each; a style is `ESC [ … m`, its reset `ESC [ 0 m`, and both are left out when standard error takes no colour
  (a message shown without colour contains no such sequences itself, by C72, but for paths in arguments).
* clap 4 with derive: long options with `=` or the next argument, short flags combined, a value attached to or after a short option; an
  argument that begins with a hyphen (and is not just one) is no value and no word; `--` ends the options; options are given at most once;
  `conflicts_with` works both ways; no abbreviations; a `PathBuf` is not empty.
* log: names of levels in any case.
* idna: a domain name in plain ASCII (no label starts with `xn--`) is put into lower case.
* std: decimal and hexadecimal `Display`, `u16::from_str`, `str::{trim, split_once, rsplit_once, strip_prefix, replace}`,
  `Ipv4Addr`/`Ipv6Addr` `Display`, `utf8_chunks`, `String::from_utf8_lossy`, `char::encode_utf16`, `HashMap`, `BTreeMap`.
* tokio `Lines`; patharg: `-` is standard output, anything else is written with `std::fs::write` (create or truncate, then write
  from the beginning in any number of pieces); paths with different texts are different files.
* serde's derived code: structures from tables (unknown keys skipped) or arrays (by position), `#[serde(default)]`; integers with a
  range check; mitsein's `Vec1` refuses an empty list.
* async_channel, tokio mpsc/oneshot, `JoinSet`, `JoinMap`, `TaskTracker`, `CancellationToken`, `timeout`: as events of the
  transition systems (FIFO channels; a receiver sees the end after the last sender is gone and the channel is empty;
  dropping a `JoinSet` aborts its tasks; `timeout` polls the future before the timer).
* rc4 (key schedule and generator), sha1 (FIPS 180-4), num-bigint (`modpow`, big-endian bytes) as published.

### External code that is a parameter

`Url::parse` in most models (in `Model/UrlParse.lean` only for `file:` URLs, and whether `^` is escaped in paths); what IDNA makes of
a domain name that is not plain ASCII (where it matters, it is assumed that results are in ASCII and lower case, hold no forbidden
characters and are results of themselves: `IdnaOk`); `url::Host::parse` in the models of the configuration, where
`Props/DhtHosts.lean` puts in the model of it; which characters `char::escape_debug` leaves alone, and the texts of errors of the system and of other crates; SHA-1 in the theorems about metadata and about the encrypted handshake (the theorems hold
for any digest; lengths of digests are hypotheses where needed); `from_utf8_lossy` and `IpAddr::to_string`/`from_str` in the
models of torrent files and HTTP trackers (any function will do); `lookup_host`; `Path::parent`; random numbers (a draw
`random_range(a..=b)` is assumed to lie in the range); the system clock; what reqwest makes of a request (it follows redirects and uses proxies that the environment names); what the network
delivers; the iteration order of hash maps; the interleaving of tasks.

### What is modelled

| module | code |
|--------|------|
| Wire, Compact | util.rs `TryBytes`, `TryFromBuf`; compact.rs; dht/mod.rs `NodeId`, `Node` |
| InfoHash | types.rs `InfoHash`, `PeerId::generate`; build.rs (the prefix) |
| Bencode | util.rs `decode_bencode`; bendy |
| PeerExt, PeerMsg, Framing | peer/extensions.rs, peer/messages.rs, the framing of peer/mod.rs |
| PeerSession | peer/mod.rs `InfoGetter`, `MessageChannel`, `PeerConnection` |
| Mse, Crypto | peer/msepe.rs |
| SecureLink | peer/mod.rs `InfoGetter::connect` and `run` over peer/msepe.rs `EncryptedStream` |
| Held | the states of the buffers of `Framed` (peer/mod.rs) and `Handshaker` (peer/msepe.rs) |
| IpParse | std's `FromStr` for addresses; peer/mod.rs `FromStr for Peer` |
| Json, IpText, Utf8 | peer/mod.rs `DisplayJson`, `write_json_str`; std |
| Info, Template | torrent.rs |
| Magnet | magnet.rs parsing of links and files |
| UrlParse | `Url::parse` as called by magnet.rs and tracker/mod.rs |
| Resolve | magnet.rs `get_torrent_file`, `download_torrent_file`; main.rs `Command::run` |
| Download | magnet.rs `download_torrent_file` with the peers' tasks (PeerSession) and `TorrentFile::save` |
| Nursery | asyncutil/* |
| Tracker, TrackerUrl, TrackerHttp, TrackerUdp, TrackerSession | tracker/* |
| TrackerFlow | tracker/mod.rs `PeerGetter` with its session; tracker/udp.rs `ConnectedUdpSocket::connect` |
| Dht, DhtMsg | dht/actor.rs, dht/messages.rs, dht/mod.rs |
| Config | config.rs `LocalPort`, `CryptoPreference`; dht/mod.rs `InetAddr` |
| Settings | config.rs `Config` and its parts, from the value tree of the crate toml |
| App | main.rs `Arguments::run`, the flags of `query-peer`; app.rs |
| Disk | `std::fs::write` run by several tasks; main.rs `Command::Batch` with its downloads |
| Get | main.rs `Command::Get` with everything it calls |
| Query | main.rs `Command::QueryTracker`, `QueryDht`, `QueryPeer`; `println!` |
| Display | util.rs `CommaList`, `ErrorChain` |
| CommandLine | main.rs `Arguments`, `Command` (their fields and attributes); clap |
| Program | main.rs `main`, `Command::run` |
| BatchGet | main.rs `Command::Batch` from the text of its file, with everything it calls |
| LogText | the log statements about links, trackers, peers and DHT nodes, the texts of errors, `Display` of messages, peers, trackers, nodes and extensions |
| ProgramLog | main.rs `init_logging` and all log statements of main.rs, magnet.rs and torrent.rs |
| AppDht, DhtSockets | app.rs `get_peers_from_dht`, `shutdown` with the DHT client behind the cell; dht/actor.rs `UdpHandle` |
| DhtLog, AskLog, PeerLog | all log statements of dht/*, tracker/*, peer/mod.rs and peer/msepe.rs, event by event |
| ConnectTime | peer/mod.rs `InfoGetter::connect` and `run` by the clock, with both timeouts |
| Random | every use of random numbers: types.rs, config.rs, app.rs, dht/actor.rs, tracker/udp.rs, peer/msepe.rs |
| NurseryQuery | asyncutil/worker_nursery.rs: the functions that only look at a nursery |
| Fleet, FleetGet | main.rs `Command::Batch` with the steps of all its downloads interleaved, and with everything it calls |
| NetBatch | the same with the conversations themselves: what is said to and by trackers, DHT and peers, interleaved |
| Aftermath | magnet.rs `get_torrent_file` after it has its metadata: the feeding task and the workers, while they are aborted |
| Closing | app.rs `shutdown` with all the tasks of tracker/mod.rs in the shutdown group |

### What is not modelled

Where in the log the messages of the tasks of trackers, peers and the DHT (debug and trace) stand among the others; the log of a run that crashes; what clap prints about a refused command line, `--help` and `--version`, and arguments that are not Unicode; the syntax of TOML (and, of its values, dates; preferences written as tables); `Debug` other than in log messages; TLS and HTTP (reqwest); file system errors other than as
an outcome; IPv6 flow information and scope IDs; what is left of a download that ended because a task panicked; fairness of the
scheduler (theorems about termination say that no further step is possible or that the number of steps is bounded; that
enabled steps are taken, and that timers eventually run out, is assumed).

## What turned out to be false

The following properties do not hold of the code.  For each there is a theorem refuting it with a concrete run or input, and
partial theorems saying what does hold.

* C17: a torrent named `..` or `-` (with a template such as `{name}`) yields the path `..` or standard output.
* C23: a UDP error packet is believed whatever its transaction ID.
* C24: if timers are looked at late, a packet with an expired connection ID may be sent again.
* C38: an address that is both a bootstrap address and listed as a node is queried twice.
* C47: when two nodes share an ID, the wrong one may be marked as having responded.
* C59: `InfoGetter::run` limits the time of connecting only.  A peer that agrees to talk about the metadata and then says nothing
  while keeping the connection open is waited for without end; if it is the only peer, so is the download (`download_hangs`).
* C63: two torrent files written to the same place at the same time may leave a mixture of both (`files_mixed`).
* C64: with a template without `{hash}` (such as the default `{name}.torrent`) this happens to torrents of the same name, and
  the batch is reported as successful (`batch_overwrites`).
* C69: the configuration accepts any `dh-exchange-timeout` of the integers of TOML.  With 9223372036854775807 seconds the addition
  `Instant::now() + timeout_len` (src/peer/msepe.rs:437) overflows and panics; the panic of the task reaches the main task, and the
  program crashes (`timeout_crashes`).  (The other timeouts are given to tokio, which checks the addition.)
* C80: while the encryption handshake waits for packet 2, `handle_input` (src/peer/msepe.rs:141-143) appends everything that arrives to its buffer and looks at
  the length only when the time is over (`dh-exchange-timeout`, 30 seconds by default); until then a peer can make the program keep any number of
  bytes (`packet2_unbounded`).
* C87, in the documentation: `try_recv` is said to give `Done` once the nursery is closed and the stream empty; while a job is running it gives
  `Empty` (`tryRecv_closed_empty`).
* C91, without its condition on names: `NodeSpace::add` keeps the first ID under which an address is listed and ignores later ones, so one false
  entry that gives the address of the closest node a far ID keeps a lookup from asking that node, although honest nodes list it
  rightly (`false_name_misleads`).
* C92, without its condition on replies: a client without IPv6 does not ignore IPv6 nodes that a reply lists unasked; it tries to send to them,
  logs an internal error for each, and they take the eight places of a lookup (`unasked_ipv6`).
* C94: that a peer which supports encryption gets an encrypted connection: not if `handshake-timeout` is below `dh-exchange-timeout`, which the
  configuration accepts (`never_encrypted`); the key exchange always lasts its whole time.
* C97, with its exception: `ConnectedUdpSocket::connect` logs "Connected UDP socket to …" (src/tracker/udp.rs:239-244) before it connects the socket, so
  the message is also there if connecting fails (`log_socket_early`).
* C72, at its border: the path in the message `Saving torrent …` is not quoted; `sanitize` leaves DEL and U+0080 to U+009F in the name of
  the torrent, and so in the log (`saving_control`).
* C98, with its exceptions: a message or packet is announced before it is sent (src/peer/mod.rs:333, src/peer/msepe.rs:426-429), so the last
  one announced may not have been sent; and "Finished receiving encryption handshake packet 2" (src/peer/msepe.rs:451-454) is logged when the time
  for the packet is over, even if nothing has been received (`packet2_unreceived`).
* C99, with its exception: dropping the stream of a nursery aborts its workers, but a task that is being polled ends only afterwards; meanwhile the next
  download of the batch may begin, so for a while more peers are asked than `batch-jobs` times `jobs-per-magnet` (`fleet_asks_more`).
* C50 and C100, with their exception: `ShutdownGroup::shutdown` (src/asyncutil/shutdown_group.rs:34-39) joins twice, and only the first time with a
  timeout.  A task spawned between the two (by a tracker that answers at this moment) is waited for without limit (`closing_hangs`).
* C100, at its border: a tracker that has been told that we have started, but has not answered when the download ends, is never told
  that we have stopped (`closing_left_behind`).
* C110, without its conditions: a UDP session takes whatever arrives first for the answer to the last datagram (src/tracker/udp.rs:120-139, with a `TODO`), so a
  second copy of the answer to the request for a connection makes the announcement fail (`duplicate_fatal`).  As the request is repeated after 15 seconds, a tracker
  that takes longer to answer than that produces such a second copy (`slow_fatal`).
