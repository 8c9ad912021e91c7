# Formal model of arrow-client in Lean 4

The properties are in `properties.jsonl` (C01 to C140). Every one of them is expressed in the model; none is left out as
inexpressible. The model is in `lean/Verif/Model`, the small independent specifications in `lean/Verif/Spec`, helper
lemmas in `lean/Verif/Lemmas`, and the property theorems with their non-vacuity examples in `lean/Verif/Props`.
A theorem for property `Cnn` is called `Cnn_...`. `MANIFEST.json` maps properties to theorem names (made by
`tools/manifest.py` from the sources and `tools/notes.json`). `seeded/LOG.jsonl` lists the wrong programs the theorems were
tested against.

## Modelling conventions

* Byte strings and texts are `List UInt8`; a text is its UTF-8 encoding. Fixed-width integers that can wrap or truncate are
  `UInt8`/`UInt16`/`UInt32`/`Int64` or arithmetic modulo `2^w`, with `w` the width of `usize` where it matters.
  Lengths and counters that cannot overflow in practice are `Nat`; each module says which.
* The release profile is modelled: no overflow checks, `panic = "abort"`.
* `&mut self` methods are functions returning the new value. Panics, `Err`, `None` and `Pending` are explicit constructors.
* Loops are structural recursion, folds, or recursion on a bound that is proved not to be reached.
* External effects (sockets, time, the scheduler, name resolution, hash functions, the file system, captured packets,
  answers of servers) are parameters or arguments of the step functions: a theorem quantifies over all their behaviours.
* A stateful component is a `step` function; properties over histories quantify over all finite lists of steps, with
  concurrency as interleaving of the atomic sections (the code between lock and unlock, or between two awaits).
* A `HashMap` or `HashSet` is a list. Its iteration order is a parameter, or the theorems quantify over all lists.
* Where the first English property is false of the code, the negation is proved on a concrete witness and the exact rule or
  the largest true part is proved; a theorem that proves only a part has the suffix `_partial`.

## What is modelled

| source in /repo/src | model | left out |
|---|---|---|
| net/arrow/proto (all files) | `Wire`, `Control`, `Utf8` | error texts |
| net/arrow/session.rs | `Session`, `SessionManager` | logging |
| net/arrow/mod.rs | `Client` | logging; connecting (in `Tls`) |
| net/tls.rs (`TlsConnector::connect`) | `Tls` | OpenSSL (an input) |
| net/tls.rs (the rest) | `TlsIo` | OpenSSL (a parameter: a program that uses the callbacks) |
| config.rs (get_tls_connector), exports/storage/ca.rs | `Trust` | OpenSSL: parsing is an input, the handshake a specification |
| net/arrow/connector.rs, net/arrow/error.rs | results only, in `Session`, `SessionManager`, `Reconnect` | sockets, error texts |
| client.rs | `Reconnect`, `CmdHandler` (channel life), `Life`, `Cadence` (the task that triggers scans) | logging |
| runtime.rs, exports/mod.rs (calls of a client) | `Life` | the threads of the runtime (steps in any order) |
| exports/svc_table.rs | `Exports` | freeing of objects (in `CApi`) |
| exports (all files): pointers, ownership, callbacks | `CApi` over `Life` | values other than pointers; failing allocation; layout of blocks |
| exports/storage/custom.rs, exports/mem.rs | `CustomStorage` | the connection state callback; allocation |
| context.rs | `AppContext`, `Config`, `Storage` | getters |
| cmd_handler.rs | `CmdHandler`, `Cadence` (over time) | logging |
| svc_table (all files) | `Service`, `SvcTable`, `Map` | Debug/Display |
| config.rs | `Config`, `Args`, `Storage` | usage and version texts |
| storage.rs | `Config`, `Lock`, `Storage`, `Clients` (several processes) | parsing of certificates (an input) |
| utils/json.rs | `Text`, `Config` | JSON text (crate `json`) is a parameter |
| utils/string/reader.rs | `Reader`, `White` | |
| utils/logger/file.rs, utils/logger/mod.rs | `Logger` | the text of the time |
| utils/logger/stderr.rs, syslog.rs, mod.rs, exports/logger.rs | `Loggers` | the text of the time; `openlog` |
| utils/mod.rs | in `RawNet` (`vec_from_raw_parts_unaligned`) | the other helpers (casts, sums of iterators) |
| net/url.rs | `Url` | |
| net/http, net/rtsp/mod.rs | `Http`, `ScanTime` (the timeouts) | sockets |
| net/rtsp/sdp.rs | `Sdp` | |
| net/raw/ether, arp.rs, ip.rs, icmp.rs, tcp.rs, net/utils.rs | `RawNet`, `RawScan`, `Text` (MAC text) | Display |
| the raw pointers of net/raw/*.rs, utils/mod.rs and net/arrow/proto/msg | `RawRead` | alignment (all reads are of packed structures or unaligned) |
| net/raw/pcap/mod.rs | `RawScan`, `Pcap` | |
| net/raw/pcap/wrapper-*.c, wrapper.h, utils.h | `Pcap`, `CMem` | the capture library (its answers are inputs); `strerror_s` |
| net/raw/devices (mod.rs, all C sources), src/utils.h (`string_dup`) | `Devices` over `CMem` (memory of a C program) | the system calls (their answers are inputs) |
| every `std::sync::Mutex` of the client and the code that runs under it (context.rs, config.rs, net/arrow, svc_table, loggers, custom storage, pcap) | `Locks` | what the code computes between taking and giving back mutexes (any number and order of the nested uses is allowed); waiting for anything but a mutex; poisoned mutexes |
| svc_table/mod.rs (`SharedServiceTable`, `SharedServiceTableRef`) between threads | `Shared` | the reading functions `Display`, `to_json`, `clone`; the clock is an input |
| net/arrow/mod.rs (`ArrowClient::new`, its `Drop`, `connect` after the handshake of TLS), session.rs (`Drop for SessionManager`, tasks of removed sessions) | `Teardown` | the protocol (any operation of the session manager is possible until the client is closed); a task that can run does so within a latency given by the theorem; `select` and `Arc` as in their documentation |
| config.rs (`ConfigBuilder`, `ConfigParser::build`), main.rs, exports/config.rs | `Builder` | creating the loggers (only whether it works) |
| net/arrow/error.rs (conversions), net/arrow/mod.rs (`connect` as a whole) | `Uplink` | the texts of errors |
| net/arrow/mod.rs (`connect`), net/tls.rs, config.rs: who is at the other end | `Secure` | OpenSSL: with whom a handshake can succeed is a specification |
| cmd_handler.rs (`network_scanner_thread`) with the scan and the service table | `Survey` | the log messages |
| scanner (all files) | `ScanResult`, `Discovery`, `LocalScan`, `ScanTime` | the time that computations take |

Not modelled: OpenSSL, lib.rs, build.rs, the crates and the standard library (beyond the
functions in `Text`, `White`, `Utf8`, `Map`). Memory safety of `unsafe` blocks beyond C105, C106, C109 to C111 and C124, liveness of the tokio scheduler, TLS and
the behaviour of the operating system cannot be expressed in this model and are not claimed.

## Plan and proof per property

| id | model | proof |
|----|-------|-------|
| C01–C03 | `Wire` | round trip on the header bytes; chunking by induction on the chunks with a prefix-stability lemma for the decoder |
| C04–C09 | `Control`, `Service`, `Utf8` | case split on the type code, equivalence with an independent acceptance predicate; an independent reader of the layouts in `Spec/ControlView`, round trip by induction over records |
| C10 | `Control` | induction over the history of the factory, modulo 65536 |
| C11–C20, C74, C77 | `Session`, `SessionManager` | invariants by induction over operations; a ghost log in `Spec/SessionLog`; waiting tasks as ghost flags |
| C21–C28, C75, C81, C82 | `SessionManager` | step lemmas, invariants; fairness by the position in the rotation |
| C29–C36, C76, C78 | `Client` over `SessionManager` | step lemmas, invariants over all histories of a connection |
| C37–C44, C79 | `SvcTable`, `Text` | invariants by induction over table operations, for every hash function; JSON round trip |
| C45–C47, C80 | `Reconnect` | case analysis, induction over rounds |
| C48 | `AppContext` | invariant over interleavings; witness for the lost notification |
| C49, C50, C83 | `CmdHandler` | invariant over interleavings |
| C51–C53 | `Config` | induction over histories with crashes and write failures at every byte |
| C54, C55, C84, C85 | `Args`, `Url`, `Config` | case analysis, induction over arguments |
| C56–C58, C86 | `ScanResult`, `Discovery`, over `Http` and `Sdp` | list induction, quantification over orders |
| C59 | `Url` | first and last occurrence of delimiters |
| C60–C64, C87, C88 | `Http` | equality with a one-shot specification for every division into pieces |
| C65 | `Sdp` | the mutual recursion equals a flat reading of the lines while the stack suffices |
| C66–C68 | `RawNet` | ones' complement sums modulo 65535; layouts and round trips; exact conditions of panics |
| C69, C70, C89 | `RawScan` | iterators as generators; induction over the captured packets |
| C71 | `Text` | equivalence with the grammar, by induction on digits |
| C72, C73 | `Logger` | invariant over all sequences of calls |
| C90 | `Lock` | invariant over all interleavings of system calls |
| C91 | `Storage` | equality with a relation between a text and its lines, by induction |
| C92 | `Storage` over `AppContext` | induction over histories; the file is a fold over the writes |
| C93 | `Storage` | mutual induction over directory trees |
| C94 | `Exports` over `SvcTable` | induction over the table; a view of a C program that determines the service |
| C95 | `Life` over `CmdHandler` | invariant over all interleavings; a rank for the steps of a scanner thread |
| C96 | `CustomStorage` over `Config` | a heap of blocks; induction over the pointers; the round trip of C43 |
| C97 | `Tls`: the combinators of `futures`, polled at every time | invariant of a poll; refinement of start and end times given by equations |
| C98 | `Loggers`: handles and cells | invariant relating cells to the history; every kind of logger |
| C99 | `TlsIo`: threads, their contexts, programs of the engine | invariant over all interleavings; refinement of a relation between polls and talks |
| C100 | `Trust`: settings of the builder, calls of an application | induction on the application's program; C93 for the paths |
| C101 | the same | induction on the program; counterexample |
| C102 | `Clients`: processes over `Lock` and `Config`, one step per file access | refinement into the sequential histories of `Config`; invariant of the lock; counterexample without the lock |
| C103 | `Client`, `SessionManager`, `Session` and `Wire` together | what is seen of a connection, read per session (Spec/Tunnel.lean); invariant relating the record to the history of every session; C02, C13, C14 |
| C104 | `Client` and `Config` (with `SvcTable`) together: every lookup of a connection reads one of the states the table goes through | vocabulary in Spec/Naming.lean; every message and connection goes back to a lookup; an identity never changes its id in one table, and a saved and reloaded table keeps it; counterexample across a reset |
| C105 | `CApi`: a heap of typed objects, all calls, interleaved with the steps of `Life` | rules as a table of arguments (Spec/CApi.lean) and a ledger of the pointers an application has; invariant: the heap is the ledger |
| C106 | `CApi` | everything held is held by an object, a task or a thread at work; nothing given before is held afterwards; counterexample with a scanner thread |
| C107 | `Client`, `SessionManager` and `Session` together, as in C103 | "every task waits" by the flags of C19, C74, C77 (Spec/Progress.lean); the record of C103, extended by the acknowledgements sent; what the flags say about the latest answers of the service |
| C108 | the same | counters over a history (Spec/Busy.lean); potential: messages queued, plus for each session what it has for the server (acknowledgement, data, end), plus one if the sending task is awake |
| C109 | `Devices`, `CMem` | total correctness by a weakest-precondition calculus; separation invariant: the new blocks are those of the linked list; induction over the entries |
| C110 | the same | the first offending entry; equivalence with the faults |
| C111 | `Pcap`, `CMem` | total correctness by the same calculus; invariant: the new blocks are the structure, the device name, the error buffer and the filter; induction over options and calls |
| C112 | the same | the same run, relating each call to its answer |
| C113 | `Pcap`, `RawScan` | the answers of the capture feed the loop of the listener; induction over the rounds |
| C114 | `Control` | the list is folded with replacement by id; induction over the list against `Spec.Snapshot.listed`, the last service listed under an id |
| C115 | `LocalScan`: `Discovery` over `RawScan` | what a scanner reports goes back to a captured frame (induction over the rounds); C69, C70, C86; the result depends only on the answers of the ports found open; counterexample |
| C116 | `Builder`: a list of setter calls, `build` with any answers of the storage | one lemma for all settings (the fold keeps the last value); case analysis of `build` |
| C117 | `Builder`: `main` over `Args`, `Builder`, `Reconnect` | C84 (arguments), C116 (configuration), C47 and C54 |
| C118 | `SvcTable` (`Elem.fromJson`, `loadLoop`), `Config` (`PConfig.fromJson`, `loadConfiguration`) | equivalence of each reading function with a relation in `Spec/Load` that speaks of keys and values only; induction over the entries for the ids, the length of the table bounds the panic; the start by `C53`'s lemmas |
| C119 | `Uplink` (one call of `connect`: `Tls.connect`, `Wire.feedAll`, `Conn.run`; the conversions of `error.rs`), `Reconnect` | induction over the operations for the origin of an error, an invariant for "the first message"; `C03_decode_exact` ties the message to the bytes; `C45`'s retry policy and `C97`'s time limit for the attempts |
| C120 | `Config.World`, `SvcTable`, `Client` | an invariant over the life of a device: all tables in memory and all tables the files can give contain only services from configuration, files and scans (`write_cases` and the JSON round trip for saved files); `src_hist` for what a connection reads |
| C121 | `Config.World`, `SvcTable`, `Client` | what an addition does to a table (`adds_latest`, `found_visible`); the announced table as an invariant of a connection (`announced_live`), where the assumption of C76 about versions is discharged by C41 for the states the table goes through (`stages_version`); ids are stable (C104) and a CONNECT is answered by C21 |
| C122 | `Secure` over `Uplink`, `Tls`, `Trust`, `Reconnect` | a connection means a handshake OpenSSL allows (`Shakes`), so C97 and C100 say who the peer is; the origin of a redirect (C34, C30, framing) and the retry policy (C45) give the chain of redirects by induction over the attempts |
| C123 | `Survey` over `LocalScan`, `Config`, `SvcTable`, `Client` | the operation that tells the client about a scan has the services of its report; so C120 and C115 give the origin of every connection, C86 and C121 give visibility; a lying host is the counterexample for foreign addresses |
| C124 | `RawRead` (memory, pointers and reads made explicit) over `RawNet`, `Wire`, `Control` | each parser over memory equals the parser over the bytes, in every memory that holds them; with the memory that holds nothing else no read can fault; the wrapped option count is refused by the allocation |
| C125 | `Client`, `SessionManager`, `Session` | waiting messages are counted on the events; every message handled adds at most one and every poll takes one or finds none; an invariant of all sessions of the manager bounds the buffers |
| C126 | `Client`, `Control`, `Wire` | noninterference: two runs side by side; every step of the client commutes with replacing the settings and the waiting messages, so the runs stay equal up to the first message of the queue |
| C127 | `ScanTime` over `Discovery` | the requests with their times as a list; series of requests by induction over the paths; hosts side by side because one address per IP is kept (C56); the set of requests by induction, with the verdicts of C58; a scan of two networks that do the same with these requests |
| C128 | `Cadence` over `CmdHandler` and `SvcTable` | a timed automaton: time passes only up to the next deadline of a trigger, a poll of the handler or a scan; an invariant with the phase of the scan bounds every deadline by the time when a scan is due and by the last report; a second invariant for the distance of scans; visibility with C42 over the operations of all reports |
| C129 | `Client` | without an accepted acknowledgement no step but a timer event changes what is expected; an invariant: something is expected since a time that is bounded, or a PING will be sent in time; freshness from C33 |
| C130 | `Cadence`, `SvcTable` and `Client` together | every start has a number, and the phase of the handler says which numbers are reported; so the last report in time belongs to a scan that started after V; what that report does to the table by C128; the connection reads states of the same table (`Reads`), and what the last message said was read at most five seconds ago (C129) |
| C131 | `Uplink` (`Client`, `Tls`) and `Reconnect` | the last timer event of a call is at most one distance after the last one that left the connection alive (induction over the operations); for that one C129; without an acknowledgement the connection is not established and cannot redirect; then the retry policy (C45, C119), and induction over the attempts |
| C132 | `Locks` | invariant: every thread takes mutexes in one order (connection, session, application context, logger, table of services, capture) and gives them back in reverse order, shown for each operation by composing code that "fits" above a rank; a thread that waits, waits for one that holds a lower mutex than the one it waits for itself, so by induction on the rank someone can go on; the steps left decrease; fair schedulers by induction over rounds; the two conditions on callbacks by executions that end in a deadlock |
| C133 | `Shared` over `SvcTable` | invariant: the owner of the mutex is the only thread inside; what is left of its function leads from the data as they are to where the whole function leads from the data after the calls that returned; then induction over the calls for the table, and `C38` with the invariant of the table for the ids; the half report by an execution |
| C134 | `Teardown` over `SessionManager` and `Session` | a transition system with a clock: holders of the shared context, watchdog, future of `connect`, tasks of open and of removed sessions; invariant with time bounds for each of them, the wake-up invariant of C19 for the tasks of closed sessions, the record of what services see; time can always go on (so the assumption about the runtime excludes no state); the connection being established by an execution |
| C135 | `Teardown` over `SessionManager` and `Session` | the start times of all sessions, open or removed, are a permutation of the times of the accepted requests (invariant over every step); the bounds follow with the invariant of C134; no limit: induction on the number, with CONNECT and HUP of the same session id |
| C136 | `Reconnect` | induction over the rounds, with the number of attempts that still fit between now and the end of the window; for refusals, the number that fits into the pairing window; the bounds are attained in an example |
| C137 | `Config` | what a start does to the identity file, and that nothing else writes it; invariants over all histories; cut texts are not JSON by the assumption about the crate |
| C138 | `Client`, `SessionManager`, `Session`, `Wire` | an invariant: what waits to be sent is a control message of a client, and every session was opened under its names; decoding by C02. The bound on payloads is a hypothesis, since tables and reads are inputs |
| C139 | `Client`, `SessionManager` | an invariant over all histories: the sessions held are those opened less those hung up or ended; a STATUS is created in one place only |
| C140 | `Client`, `SessionManager`, `Control` | for every effect the message that has to come immediately before it, read from its bytes; an invariant over all histories |

## Partial properties

* C17 (data accepted before a hang-up reaches the service): false, `C17_false_data_lost_on_hup`. Proved: order while open.
* C28 (sessions opened are addressable): false for ids from 2^24 on, `C28_false_unreachable_session`. Proved below.
* C44 (loading yields one id per service): false, `C44_false_duplicate`, `C44_false_control`. Proved without such entries.
* C75 (size of the polling rotation): false, `C75_rotation_grows`. Proved: one entry per session ever opened.
* C76 (the server knows the visible services): false, `C76_false_update_lost`. Proved if no change falls between two reads.
* C101 (a CA certificate loaded through the C interface is trusted): false for PEM and DER, `C101_told_false`. Proved for files.
* C106 (no callback after everything was given back): false with discovery, `C106_false_with_discovery`. Proved if no scanner
  thread is at work; without discovery for applications that join their threads.
* C110 (listing interfaces is free of undefined behaviour): false, `C110_linux_maskless`, `C110_macos_maskless`,
  `C110_windows_host_prefix`, `C110_windows_no_memory`. Proved: these are the only answers that lead to it.
* C112 (captures report errors): false on Linux and macOS, `C112_unix_not`: a read in which `pcap_setnonblock` or `poll`
  fails is answered as an empty frame. Proved: exactly that is answered, and all the rest is right.
* C113 (a scan whose device fails ends with an error): false for the same reads, `C113_unix_not`. Proved for the others.
* C115 (a scan contacts only the local networks): false, `C115_foreign_address`. Proved: everything contacted has answered on
  an interface that may be scanned, and is in its network if the captured packets claim addresses of the network only.

## Findings: behaviour of the code that a user may not expect

Each is a theorem on the model with a concrete witness.

* Protocol: 32-bit `usize` overflow panics the decoder (C03); a NUL in a path breaks the service table on the wire (C07); a
  host with 65536 ports is reported with none (C09).
* Sessions: data read without window is lost at a close (C16); data is dropped on HUP (C17); sessions with ids from 2^24 on
  are unreachable (C28); the polling rotation grows without bound (C75).
* Client: an update can be lost for ever (C76); "connected" is reported before the handshake (C80); unlimited redirects
  without delay (C46); lost notifications of listeners (C48); the command handler never ends (C83).
* Service table: a file with 65536 entries panics at start (C44); empty locked paths do not survive (C43); an expired
  service found again stays invisible until the next expiry (C42).
* Configuration: a failed save is not retried (C51); a reset leaves other holders with a frozen table (C52); the identity is
  lost without skeleton when the file is unreadable (C53); fake MAC addresses collide (C55); some options are ignored
  (C84); credentials of static services are lost (C85).
* HTTP and RTSP: truncated bodies are accepted (C61, C62); a Content-Length of 2^63 aborts the client (C87); Host without
  port, credentials sent (C88).
* Scanning: one locked path hides a supported one (C58); merging depends on the order (C57); of two devices with an address
  one is dropped (C56); unbounded recursion in SDP (C65) lets one camera abort the client (C86).
* Raw packets: short header lengths panic (C68); ICMP checksums are wrong from sequence number 256 on (C66); padding becomes
  payload (C67); port 65535 is never probed and hides later ranges (C70); 255.255.255.255/32 probes all addresses (C69);
  late answers are lost (C89).
* Logger: `--log-file-rotations=0` makes a rotation run 2^64-1 rounds; a write error aborts the client (C72).
* Files: a refused second start empties the lock file of the running client, numbers can mix (C90); one byte that is not
  UTF-8 drops all paths (C91); a failed write of the state is not repeated, the state file is stale after a restart (C92);
  one bad certificate file hides the rest of its directory (C93); without a lock file two first starts at the same time run
  with two identities (C102).
* C interface: a NUL in a path aborts a program that asks for the service table (C94); a path function that answers with
  success and a NULL array causes undefined behaviour (C96); PEM and DER certificates are accepted but not trusted (C101).
* Callback logger: a NUL in a message aborts the application; `syslog` gets it escaped (C98).
* Connecting: an address that never answers blocks the others (C97); the name checked for an IPv6 address keeps its brackets
  (C97).
* Closing: a close during a network scan aborts the process of the application; the reported connection state is frozen
  (C95).
* After a reset of the service table the ids are given again: an id the server was told on an earlier connection can
  lead to another service, of another type and on another device (C104_false_after_reset).
* C interface: the header does not say that `ac__default_storage_builder__set_logger` takes over the logger, an application
  that follows it frees the logger twice (C105_false_by_the_header); a scanner thread calls back after everything was freed
  and joined (C106_false_with_discovery); an index that is too large aborts the application (C105).
* Listing the interfaces dereferences NULL if an Ethernet interface has an IPv4 address without mask (Linux, macOS), shifts
  by 32 if an adapter has a prefix of 32 bits (Windows), and dereferences NULL if a name cannot be copied (Windows) (C110).
* On Linux and macOS a failure of `pcap_setnonblock` or `poll` in a read is taken for a captured frame, because the wrapper
  returns positive numbers for it. A scan whose reads fail that way spins until its total timeout and finds nothing, without an
  error (C112, C113).
* `CaptureBuilder::filter(None)` always aborts the client (C111). It is not called that way.
* The sender addresses of ARP packets are not checked: a host in the local network that claims another address in one ARP
  reply makes the client scan this address, connect to it and report it as a service of the local network (C115).
* A host in the local network that answers with an address of another network makes the client connect there for the
  server (C123_foreign_address).
* An IPv4 or TCP header with a length field below 5 words passes the check of the length, as the number of option words
  wraps around. No byte outside of the frame is read only because `Vec::with_capacity` panics on the wrapped number
  (C124_short_header_panics, C124_short_tcp_header_panics, C124_words_would_fault).
* A device that answers OPTIONS but keeps silent when it is asked for streams makes a scan last two seconds for each of
  the 211 paths delivered with the program: seven minutes, longer than the period of five minutes between scans, and no
  other scan can start meanwhile (C127, C49).
* Callbacks of an application's storage run while the mutex of the application context is held, and callbacks of its logger
  while the mutex of the logger is held (and often that of the context). If one of them calls a getter of the client, the
  client hangs; for the storage always, for the logger depending on the schedule. The header does not say so; event
  listeners, on the contrary, may call everything (C132).
* The report of a scan is not one operation on the table of services: a connection that checks for changes meanwhile sends the
  server a part of the services found, and the rest with the next check (C133_half_report_seen).
* Neither a HUP of the server nor the end of the connection to the server stops a connection to a service that is
  still being established: it goes on for up to 20 seconds and is closed right after it is established (C134). Until
  the watchdog drops the last reference, up to one second after `connect` returned, bytes of services are still read.
* The number of connections to services is not limited. A server that alternates CONNECT and HUP makes the client
  establish any number of them at the same time although it has no session open (C135_no_limit); what bounds them is only
  the number of its requests in the last 20 seconds (C135_being_established).
* That the identity file cannot be written is only logged: the client runs with a UUID other than the one in the file, for
  example after it had to draw a new one (C137_may_be_stale).

## Trusted base

* The kernel of Lean 4.33.0. No axioms are added, there is no `sorry`, and neither `native_decide` nor `bv_decide` is used.
* The axioms `propext`, `Classical.choice` and `Quot.sound` of Lean, as listed below per theorem.
* The correspondence of the model to the Rust source, by reading; every definition cites its lines.
* For the C sources: the meaning of C as far as `Model/CMem.lean` gives it (blocks, typed loads and stores, faults for
  what C leaves undefined). Addresses of freed blocks are not used again in the model.
* The layout of `#[repr(packed)]` structures: the fields in the order of their declaration, without padding. Rust fixes
  the absence of padding; the order is what the compiler does (`repr(C, packed)` would fix it).
* The assumptions on the environment stated at the head of each module of the model: monotonic clock, the contracts of
  `AsyncRead` and `AsyncWrite`, FIFO channels, atomic sections under locks, faithful text of JSON, UUIDs and socket
  addresses in the crates and the standard library, no other writer of the files.

### Axioms of the theorems

<!-- axioms begin -->
* no axioms (1 theorems): C98_plain.
* `propext` (22 theorems): C07_nul_path_breaks_table, C20_closed_is_final, C46_first_attempt, C47_exit_code, C48_overlap_loses, C48_changed_iff, C70_all, C70_hidden, C71_round_trip, C71_injective, C79_hash_format, C86_whitelist, C90_refused, C96_null_paths, C99_pending, C112_unix_not, C114_control, C116_saves, C116_warnings, C133_atomic, C133_order, C133_half_report_seen.
* `Quot.sound`, `propext` (101 theorems): C02_chunking_irrelevant, C03_decode_never_panics, C03_decode_panics_on_32_bit, C06_declared_length, C07_table_readable, C07_update_readable, C08_register_content, C08_other_windows_rejected, C09_scan_report_content, C09_every_service_reported, C09_65536_ports_lost, C10_message_ids, C10_distinct_within_65536, C14_discarded_when_closed, C16_lost_without_window, C17_written_while_open_partial, C18_no_read_when_full, C21_connect_granted, C23_known_session, C24_isolated, C25_server_hup, C34_closed_is_final, C34_eof_closes, C35_ping, C35_get_status, C35_get_scan_report, C35_commands, C35_sessions, C45_retry_policy, C46_redirect, C46_redirects_not_limited, C47_no_exit, C48_state_is_latest, C49_at_most_one_scan, C50_scan_life, C50_dead_worker_blocks, C55_v4, C57_services_order_matters, C67_ether_layout, C67_arp_layout, C67_icmp_layout, C67_too_many_options, C68_panic_exists, C68_panic_tcp_exists, C72_no_backups, C72_rounds, C75_rotation_grows, C76_false_update_lost, C79_hash_input, C80_connection_state, C83_handler_never_ends, C86_device_all_or_nothing, C89_not_opened, C89_late_answer, C90_exclusive, C90_kept, C90_second, C90_restart, C90_truncated, C91_lines, C94_faithful, C94_buffers, C96_paths, C97_timing, C97_lookup, C97_hostname, C97_hostname_v6, C105_false_by_the_header, C106_false_with_discovery, C108_session_does_not_spin, C110_windows_no_memory, C111_safe, C111_filter_none, C112_windows, C112_unix, C112_listener, C112_unix_partial, C113_windows, C113_unix_partial, C113_unix_silent, C113_unix_not, C114_get, C114_id, C114_agree, C116_settings, C116_fails, C116_panics, C116_asks, C116_c_interface, C124_words_would_fault, C126_identity_only_in_register, C126_key_bytes, C132_exclusive, C132_storage_callback_hangs, C132_logger_callback_hangs, C133_table, C133_reads, C133_ids, C134_connecting_goes_on, C136_refusals, C136_diagnostic.
* `Classical.choice`, `Quot.sound`, `propext` (412 theorems): C01_layout, C01_message_round_trip, C02_stream_of_messages, C03_decode_exact, C04_accepted_fields, C04_wellformed_accepted, C04_accepts_iff, C04_otherwise_error, C05_round_trip_built, C05_round_trip_server, C05_layout, C06_arrow_size, C11_unacknowledged_le_window, C11_push_outcome, C11_closed_writes_nothing, C12_sent_le_window, C13_reads_eq_sent_append_buffer, C13_data_headers, C14_accepted_eq_wrote_append_buffer, C15_ack_accounting, C15_nothing_left_unacknowledged, C15_ack_content, C16_delivered_before_end, C16_closed_session_drains, C17_false_data_lost_on_hup, C18_buffer_bound, C19_manager_not_forgotten, C19_transport_not_forgotten, C20_first_close_decides, C20_error_reported_once, C20_closed_iff_cause, C21_connect_refused, C21_opened_iff, C22_connection_loopback_only, C22_loopback_only, C23_unknown_session, C24_poll_isolated, C25_connection_lives, C25_lives, C25_hup, C25_sent, C26_pending_means_nothing_to_send, C26_bounded_bypass, C27_open_sessions_polled, C28_false_unreachable_session, C28_addressable_partial, C29_handshake_first, C29_nothing_before_handshake, C30_first_answer, C30_refusal_ends, C31_acks_match, C31_in_order, C31_mismatch_refused, C32_ack_timeout, C33_schedule, C33_nothing_before_handshake, C33_announced_version, C34_redirect_is_final, C34_redirect_origin, C35_malformed_refused, C36_control_first, C37_consistent, C38_stable, C39_never_panics, C39_free_id, C39_panic_iff, C39_too_many, C40_control, C41_no_change_missed, C41_no_needless_change, C41_table_version, C42_visible_after_expiry, C42_visible_after_add, C43_save_load, C43_false_empty_path, C44_false_duplicate, C44_false_control, C44_load_consistent_partial, C44_load_never_panics, C44_load_panics, C45_not_too_early, C48_only_real_changes, C48_undisturbed_changes_reported, C48_sequential, C49_when_scans_start, C51_saved_when_changed, C51_saved_only_when_changed, C51_file_current, C51_failed_save_not_retried, C52_reset, C52_old_table_frozen, C52_same_table_without_reset, C53_identity_kept, C53_recovered, C53_first_start, C53_lost_without_skeleton, C53_lost_if_unreadable, C54_service_address, C54_bare_v6, C55_bytes, C55_v6, C55_v4_v6, C55_identity, C55_shadowed, C56_filter, C56_single, C56_two_devices_one_address, C57_hosts, C57_services, C57_socket_addrs, C57_order_and_repetition, C57_merge, C57_merge_services, C58_rtsp, C58_mjpeg, C58_verdict, C58_buggy, C58_locked_hides_supported, C59_components, C59_accepted, C59_refused, C59_no_slash, C59_bare_v6, C60_packets, C60_final, C60_lines, C60_exact, C60_error, C60_too_long, C61_length, C61_complete, C61_truncated, C61_until_close, C62_chunked, C62_complete, C62_truncated, C62_garbage, C63_sound, C63_complete, C63_no_header, C63_too_many_lines, C63_reset, C64_history, C64_last, C65_reads, C65_no_panic, C65_overflow, C65_attributes_ignored, C65_overflow_small, C65_long_line, C65_rtpmap, C66_ip, C66_tcp, C66_icmp, C66_probes, C67_ip_layout, C67_tcp_layout, C67_frame, C67_exact, C67_echo, C68_panic, C68_error, C68_ok, C69_arp, C69_icmp, C69_hosts, C69_prefix, C69_wrap, C70_frames, C70_range, C70_last_port, C71_parse, C71_format, C72_contents, C72_recent, C72_size, C72_whole, C72_count, C72_abort, C72_empty_backup, C73_exact, C73_below, C73_written, C74_manager_not_forgotten, C75_rotation_bound_partial, C76_server_up_to_date_partial, C77_sender_not_forgotten, C78_no_panic, C79_preferred_id, C81_sessions_independent, C81_window_respected, C82_refusals_answered_once, C84_accepts, C84_outcome, C84_ends, C84_no_address, C84_help_is_address, C84_flash_friendly_ignored, C85_rtsp_service, C85_mjpeg_service, C85_credentials_not_kept, C86_hosts, C86_scan, C86_camera_aborts_client, C87_panic, C87_ignored, C88_http, C88_rtsp, C88_options, C88_get, C88_describe, C88_total, C88_set_adds, C89_arp, C89_icmp, C89_tcp, C89_send_fails, C89_ends, C90_content, C90_content_mixed, C90_content_zeros, C91_paths, C91_warning, C91_all_or_nothing, C91_utf8, C92_current, C92_changes, C92_values, C92_failures, C92_untouched, C92_not_repeated, C92_stale, C93_tree, C93_only, C93_paths, C93_stops, C93_der_hides, C94_table, C94_nul_aborts, C95_once, C95_commands, C95_queued, C95_closed, C95_ends, C95_forever, C95_abort_only, C95_scan_abort, C96_load, C96_saves, C96_start, C96_persist, C97_result, C97_starts, C97_spacing, C97_connect, C97_silent, C97_refused, C97_hostname_given, C98_silent, C98_below, C98_stderr, C98_syslog, C98_callback, C98_dummy, C98_abort, C98_nul, C99_polls, C99_no_panic, C99_context, C99_wake, C100_settings, C100_handshake, C100_default, C100_none, C101_code, C101_files_partial, C101_pem_der_ignored, C101_told_false, C102_sequential, C102_exclusive, C102_identity, C102_no_lock, C103_flow_control, C103_both_ways, C103_to_server, C103_to_service, C104_one_connection, C104_whole_life, C104_false_after_reset, C105_following_the_rules_is_safe, C105_the_rules_are_necessary, C105_objects_are_the_pointers, C105_no_leak, C105_pointers_are_new, C105_calls_do_not_abort, C106_no_callback_afterwards_partial, C106_lock_is_free_afterwards_partial, C106_joined_without_discovery, C107_nothing_left_behind, C108_sender_does_not_spin, C108_comes_to_rest, C109_linux, C109_macos, C109_windows, C109_windows_memory, C110_linux_maskless, C110_macos_maskless, C110_windows_host_prefix, C110_linux_partial, C110_macos_partial, C110_windows_partial, C115_frames, C115_requests, C115_reported, C115_local_partial, C115_foreign_address, C117_arguments, C117_no_address, C117_locked, C117_log_file, C117_starts, C117_running, C117_ends, C118_table, C118_accepted, C118_panics, C118_config, C118_config_panics, C118_started, C119_unauthorized, C119_unsupported, C119_refused, C119_only_a_refusal_stops, C119_next_attempt, C119_goes_on, C119_unreachable, C120_connects_only_to_given, C120_tells_only_given, C121_found_is_visible, C121_announced, C121_told_can_be_used, C122_vouched, C122_sent_to_genuine, C122_man_in_the_middle, C123_connects_only_to_heard, C123_connects_only_to_local, C123_found_is_visible, C123_foreign_address, C124_frame_in_bounds, C124_packets_in_bounds, C124_message_in_bounds, C124_checksum_in_bounds, C124_reads_the_bytes, C124_short_header_panics, C124_short_tcp_header_panics, C125_waiting_bound, C125_poll_adds_nothing, C125_reads_one_while_waiting, C125_bytes_held, C127_request_time, C127_scan_time, C127_one_at_a_time, C127_all_requests, C127_no_more_requests, C127_slow_server, C128_scans_recur, C128_starts_in_time, C128_one_scan, C128_not_before, C128_reports_recur, C128_visible, C128_vanished, C128_kept, C129_silent_server, C129_no_handshake, C129_fresh, C129_server_knows, C130_scan_reported, C130_next_scan, C130_appears, C130_announced, C130_withdrawn, C131_returns, C131_reconnects, C131_mute, C131_next_minute, C131_every_minute, C131_found_again, C132_no_deadlock, C132_completes, C132_fair, C134_after_return, C134_after_close, C134_record, C134_removed, C134_hup, C134_time_goes_on, C135_one_per_request, C135_being_established, C135_in_use, C135_no_limit, C136_rate, C136_rate_authorized, C137_names_the_client, C137_public, C137_only_if_asked, C137_may_be_stale, C138_only_what_a_client_says, C138_server_decodes, C139_status, C139_open, C140_solicited.
<!-- axioms end -->
