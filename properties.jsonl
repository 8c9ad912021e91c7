{"id": "C01", "title": "Arrow message round trip", "statement": "Encoding an Arrow message (service id, session id, payload shorter than 2^32 bytes) and decoding the resulting bytes, followed by any further bytes, yields a message with the same service id, the session id reduced to its low 24 bits, the same payload, and leaves exactly the further bytes in the buffer.", "quantifier": "every 16-bit service id, every 32-bit session id, every payload below 2^32 bytes, every trailing byte string", "why_tests_cant": "payload sizes, contents and trailing bytes are unbounded; a test samples a few", "anchors": ["src/net/arrow/proto/msg/mod.rs: ArrowMessage::new, encode, decode", "src/net/arrow/proto/codec.rs: ArrowCodec"]}
{"id": "C02", "title": "Framing does not depend on how the stream is cut", "statement": "Feeding a byte stream to the codec in arbitrary chunks, decoding as much as possible after every chunk, gives the same sequence of messages and the same error (if any) as feeding the whole stream at once, and as long as there is no error the same unconsumed bytes; for a stream that is the concatenation of encoded messages it gives exactly those messages.", "quantifier": "every byte stream and every way of splitting it into chunks", "why_tests_cant": "the number of splittings is exponential in the stream length and the stream is unbounded", "anchors": ["src/net/arrow/proto/msg/mod.rs: ArrowMessage::decode", "src/net/arrow/proto/codec.rs: ArrowCodec::decode"]}
{"id": "C03", "title": "Decoder never consumes or invents data", "statement": "The codec yields a message only when the complete message is in the buffer, and then removes exactly 11+size bytes; with fewer bytes it asks for more and removes nothing; a version byte other than 2 is always an error and removes nothing; it never panics.", "quantifier": "every buffer content", "why_tests_cant": "all byte strings of all lengths", "anchors": ["src/net/arrow/proto/msg/mod.rs: ArrowMessageHeader::from_bytes, ArrowMessage::decode"]}
{"id": "C04", "title": "Control message decoding accepts exactly the well-formed messages", "statement": "A control payload is accepted iff it has a 4-byte header and its type is ACK with a 4-byte body, CONNECT with 6, DATA_ACK or HUP with 8, REDIRECT with a valid UTF-8 body followed by a zero byte, or PING/RESET_SVC_TABLE/SCAN_NETWORK/GET_STATUS/GET_SCAN_REPORT with an empty body; every other payload (including REGISTER, UPDATE, STATUS, SCAN_REPORT and unknown types) is an error, never a panic, and accepted fields are the big-endian fields of the payload.", "quantifier": "every payload byte string", "why_tests_cant": "acceptance is a set of byte strings of unbounded length; a test cannot show that nothing else is accepted", "anchors": ["src/net/arrow/proto/msg/control/mod.rs: ControlMessage::from_bytes, decode_body", "src/net/arrow/proto/msg/control/{ack,connect,data_ack,hup,redirect}.rs"]}
{"id": "C05", "title": "Control message round trip", "statement": "Every ACK, DATA_ACK, HUP and PING message the client builds decodes (by the same protocol decoder) to the same message id, type and fields, with the session id of DATA_ACK and HUP reduced to 24 bits; so do CONNECT and REDIRECT messages.", "quantifier": "all message ids, session ids, error codes, lengths, targets", "why_tests_cant": "full product of 16 and 32-bit domains and unbounded strings", "anchors": ["src/net/arrow/proto/msg/control/mod.rs", "src/net/arrow/proto/msg/control/hup.rs", "src/net/arrow/proto/msg/control/data_ack.rs", "src/net/arrow/proto/msg/control/ack.rs"]}
{"id": "C06", "title": "Declared body length is the encoded length", "statement": "For every control message the client can build (REGISTER, UPDATE, STATUS, SCAN_REPORT, HUP, DATA_ACK, ACK, PING, CONNECT, REDIRECT) the length it declares equals the number of bytes it encodes.", "quantifier": "every message body, incl. service tables and scan reports of any size", "why_tests_cant": "bodies contain tables and strings of unbounded size", "anchors": ["src/net/arrow/proto/msg/mod.rs: MessageBody::len", "src/net/arrow/proto/msg/control/register.rs", "src/net/arrow/proto/msg/control/svc_table.rs", "src/net/arrow/proto/msg/control/scan_report/mod.rs", "src/net/arrow/proto/msg/control/scan_report/host_table.rs"]}
{"id": "C07", "title": "Service table on the wire can be read back", "statement": "The service table written into REGISTER and UPDATE can be parsed back by a reader that only knows the record layout: it yields exactly the services of the table (id, type, MAC, IP, port, path, with missing values as zeros/empty) in the order written, and stops at the terminating id-0 control record, provided no path contains a NUL byte and no listed service is the control service; with a NUL in a path this fails.", "quantifier": "every service table", "why_tests_cant": "tables and paths of unbounded size", "anchors": ["src/net/arrow/proto/msg/control/svc_table.rs: SimpleServiceTable::encode, Element::encode"]}
{"id": "C08", "title": "REGISTER message content", "statement": "A REGISTER message encodes uuid, key, MAC, window size minus one, the gateway flag, the NUL-terminated extended info and the service table so that a layout-only reader recovers each of them; the advertised window (field + 1) equals the session window for every window in 1..65536, and any other window is rejected by an assertion.", "quantifier": "all identities, windows, flags, extended infos without NUL, tables", "why_tests_cant": "unbounded strings and tables", "anchors": ["src/net/arrow/proto/msg/control/register.rs", "src/net/arrow/proto/msg/control/mod.rs: ControlMessage::register"]}
{"id": "C09", "title": "SCAN_REPORT content", "statement": "A SCAN_REPORT can be read back by a layout-only reader: request id, every host (flags, MAC, IP) with its ports, and every reported service that has an id in the service table, under that id; this holds whenever each host lists fewer than 65536 ports, and fails for a host with exactly 65536 ports.", "quantifier": "every scan result and service table", "why_tests_cant": "unbounded numbers of hosts, ports and services", "anchors": ["src/net/arrow/proto/msg/control/scan_report/mod.rs", "src/net/arrow/proto/msg/control/scan_report/host_table.rs"]}
{"id": "C10", "title": "Message ids", "statement": "Messages created by the client from the shared counter carry ids 0,1,2,... modulo 65536 in creation order, so any 65536 consecutive ones are distinct, the REGISTER message of a connection has id 0, and an ACK reply carries the id of the message it acknowledges without using up an id.", "quantifier": "every sequence of message creations, of any length", "why_tests_cant": "counter wrap-around needs >65536 creations and all interleavings of message kinds", "anchors": ["src/net/arrow/proto/msg/control/mod.rs: ControlMessageFactory"]}
{"id": "C11", "title": "Session: window towards the service", "statement": "At any time the number of bytes received from the server for a session that have not yet been acknowledged by DATA_ACK never exceeds the advertised window; a data message that would exceed it closes the session with an error and none of its bytes are passed on.", "quantifier": "every interleaving of data messages, service writes of any size and polls on a session", "why_tests_cant": "arbitrary interleavings and sizes", "anchors": ["src/net/arrow/session.rs: SessionContext::push_output_message, take_data_ack, poll_write_output"]}
{"id": "C12", "title": "Session: window towards the server", "statement": "The total number of payload bytes sent to the server on a session never exceeds 65536 (the window) plus the total length acknowledged by the server's DATA_ACK messages.", "quantifier": "every history of a session", "why_tests_cant": "unbounded histories", "anchors": ["src/net/arrow/session.rs: SessionContext::take_arrow_message, process_data_ack"]}
{"id": "C13", "title": "Session: bytes from the service arrive in order, unmodified", "statement": "The concatenation of the data payloads sent to the server on a session is a prefix of the bytes read from the service, and what is missing is exactly what is still buffered; every such message carries the session's service id and session id.", "quantifier": "every history of a session", "why_tests_cant": "unbounded histories, arbitrary read and chunk sizes", "anchors": ["src/net/arrow/session.rs: poll_read_input, take_arrow_message"]}
{"id": "C14", "title": "Session: bytes to the service arrive in order, unmodified", "statement": "The bytes written to the service are a prefix of the concatenation of the payloads accepted from the server for that session, and what is missing is exactly what is still buffered; payloads arriving after the session was closed are discarded.", "quantifier": "every history of a session", "why_tests_cant": "unbounded histories, arbitrary partial writes", "anchors": ["src/net/arrow/session.rs: push_output_message, poll_write_output"]}
{"id": "C15", "title": "Session: DATA_ACK accounting is exact", "statement": "The sum of lengths of all DATA_ACK messages sent for a session plus the bytes written but not yet acknowledged equals the bytes written to the service; after a poll that returns anything other than a DATA_ACK nothing is left unacknowledged, and no DATA_ACK of length 0 is sent.", "quantifier": "every history of a session", "why_tests_cant": "unbounded histories", "anchors": ["src/net/arrow/session.rs: take_data_ack, take_arrow_message"]}
{"id": "C16", "title": "Session: everything read before a close is delivered before HUP", "statement": "If the server's window allows it, all bytes read from the service before it closed the connection are sent to the server before the session is reported finished; without window the remaining bytes are lost (the session ends although buffered bytes remain).", "quantifier": "every closed session state and every window", "why_tests_cant": "needs all buffer and window combinations", "anchors": ["src/net/arrow/session.rs: take_arrow_message 147-190"]}
{"id": "C17", "title": "Session: data accepted before the server hangs up reaches the service", "statement": "Every byte of data accepted from the server before the server's HUP is eventually written to the service. (False in this code: closing drops the output buffer.)", "quantifier": "every session state at HUP time", "why_tests_cant": "depends on the interleaving of HUP with the transport task", "anchors": ["src/net/arrow/session.rs: SessionTransport::poll, SessionManager::close"]}
{"id": "C18", "title": "Session: input buffering is bounded", "statement": "The client stops reading from a service while 8192 or more bytes are buffered, so the buffer never exceeds 8191 plus the size of one read.", "quantifier": "every history of a session and all read sizes", "why_tests_cant": "unbounded histories", "anchors": ["src/net/arrow/session.rs: poll_read_input"]}
{"id": "C19", "title": "Session: no lost wake-up", "statement": "Whenever the session manager or the transport task has been told 'pending' for a session and the session later changes so that it could make progress (data readable by the manager, window opened, output queued, session closed, buffer drained), the corresponding waiting task has been woken.", "quantifier": "every interleaving of operations by manager and transport", "why_tests_cant": "concurrency bug class; depends on the interleaving", "anchors": ["src/net/arrow/session.rs: input_ready/register_task/wake, SessionContext"]}
{"id": "C20", "title": "Session: first close decides, reported once", "statement": "After a session is closed, later errors, closes and data have no effect on it; its final result is the first error (or a clean end), and an error is reported exactly once.", "quantifier": "every history of a session", "why_tests_cant": "unbounded histories", "anchors": ["src/net/arrow/session.rs: close, set_error, take_arrow_message"]}
{"id": "C21", "title": "CONNECT outcome", "statement": "A CONNECT request opens exactly one connection, to the address the service table gives for that service id, iff the session id is not in use, the service exists and has an address, and the client is in gateway mode or the address is loopback; in every other case no connection is made, existing sessions are untouched, and exactly one HUP with EC_CONNECTION_ERROR for that session id is queued.", "quantifier": "every manager state, service table, session id and service id", "why_tests_cant": "all combinations of states and tables", "anchors": ["src/net/arrow/session.rs: SessionManager::connect, connect_inner"]}
{"id": "C22", "title": "Non-gateway clients only reach loopback", "statement": "If gateway mode is disabled, then over the whole life of a connection to the server every service connection the client opens goes to a loopback address.", "quantifier": "every sequence of server messages and service table contents", "why_tests_cant": "security property over all histories", "anchors": ["src/net/arrow/session.rs: connect_inner", "src/net/arrow/mod.rs: ArrowClientContext"]}
{"id": "C23", "title": "Data for unknown sessions", "statement": "A data message whose session id does not exist is answered by exactly one HUP with EC_CONNECTION_ERROR for that session id, and changes no existing session; a data message for an existing session is delivered only to that session.", "quantifier": "every manager state and message", "why_tests_cant": "all states", "anchors": ["src/net/arrow/session.rs: SessionManager::send"]}
{"id": "C24", "title": "Sessions are isolated", "statement": "Any operation addressed to one session (data, DATA_ACK, HUP, service I/O) leaves the state of every other session unchanged.", "quantifier": "every manager state and operation", "why_tests_cant": "all pairs of sessions in all states", "anchors": ["src/net/arrow/session.rs: SessionManager"]}
{"id": "C25", "title": "One HUP per session ended by the service", "statement": "In every history each session that ends because of its service produces exactly one HUP (code 0 after a clean end, EC_CONNECTION_ERROR after an error), after which no message of that session is produced until a new CONNECT; a session ended by the server's HUP produces no HUP.", "quantifier": "every history of the session manager", "why_tests_cant": "unbounded histories with id reuse", "anchors": ["src/net/arrow/session.rs: SessionManager::poll_next, close"]}
{"id": "C26", "title": "Round-robin fairness", "statement": "A session that has something to send and stays in that state is served after at most as many messages as there are entries in the manager's rotation; a poll returns 'pending' only when no session has anything to send.", "quantifier": "every manager state", "why_tests_cant": "starvation is a property of unbounded executions", "anchors": ["src/net/arrow/session.rs: SessionManager::poll_next"]}
{"id": "C27", "title": "Every open session is polled", "statement": "In every reachable state of the session manager, every open session is in its polling rotation.", "quantifier": "every history incl. id reuse after HUP", "why_tests_cant": "unbounded histories", "anchors": ["src/net/arrow/session.rs: SessionManager::connect, poll_next, close"]}
{"id": "C28", "title": "Sessions opened by CONNECT are addressable", "statement": "Every session opened by CONNECT can receive the data addressed to it. (False in this code for session ids with any of the upper 8 bits set: the CONNECT keeps them, data messages cannot carry them.)", "quantifier": "every 32-bit session id in a CONNECT", "why_tests_cant": "needs reasoning about the wire format and session map together", "anchors": ["src/net/arrow/proto/msg/control/connect.rs: from_bytes", "src/net/arrow/proto/msg/mod.rs: ArrowMessageHeader::from_bytes", "src/net/arrow/session.rs: SessionManager"]}
{"id": "C29", "title": "Nothing happens before the handshake", "statement": "Until the server has acknowledged REGISTER (ACK with id 0 and code 0), no message from the server opens a connection, delivers data, issues a command, or produces any reply; any message other than that ACK ends the connection with an error.", "quantifier": "every sequence of server messages", "why_tests_cant": "all message sequences", "anchors": ["src/net/arrow/mod.rs: process_arrow_message, process_handshake_ack, process_*"]}
{"id": "C30", "title": "Handshake outcome", "statement": "The handshake ACK code maps to: 0 success (in diagnostic mode: the connection ends at once); 1 unsupported protocol version; 2 unauthorized; 0xffffffff an Arrow server error; any other code another error; an ACK with another message id, or none outstanding, is an error.", "quantifier": "every 16-bit id and 32-bit code", "why_tests_cant": "2^48 combinations", "anchors": ["src/net/arrow/mod.rs: process_handshake_ack"]}
{"id": "C31", "title": "Acknowledgements are matched in order", "statement": "The n-th ACK from the server must carry the id of the n-th message the client sent that expects one (REGISTER, then PINGs; UPDATEs are not acknowledged); an unexpected or mismatching ACK ends the connection with an error.", "quantifier": "every history", "why_tests_cant": "unbounded histories", "anchors": ["src/net/arrow/mod.rs: process_ack_message, send_unconfirmed_control_message, send_update_message, send_ping_message"]}
{"id": "C32", "title": "ACK timeout", "statement": "At any time event the connection is declared timed out iff some outstanding request was sent 20 seconds ago or earlier (looking only at the oldest is sufficient).", "quantifier": "every history with a monotonic clock", "why_tests_cant": "needs an invariant on queue order", "anchors": ["src/net/arrow/mod.rs: ack_timeout, time_event"]}
{"id": "C33", "title": "PING and UPDATE schedule", "statement": "While the connection is healthy, time events send a PING exactly when 60 s passed since the last one and an UPDATE exactly when the visible service table version differs from the last one sent and 5 s passed since the last check; in between none is sent.", "quantifier": "every history of time events", "why_tests_cant": "unbounded histories", "anchors": ["src/net/arrow/mod.rs: time_event, check_for_updates, send_update_message"]}
{"id": "C34", "title": "Redirect and close are final", "statement": "Once a redirect was received or the client was closed, the client produces no more messages and ignores all further input, and the result of the connection is the target of the first redirect.", "quantifier": "every history after the redirect", "why_tests_cant": "unbounded histories", "anchors": ["src/net/arrow/mod.rs: process_redirect_message, is_closed, poll_next, connect"]}
{"id": "C35", "title": "Replies", "statement": "After the handshake, PING is answered by exactly one ACK with the same id and code 0; GET_STATUS by exactly one STATUS with the request's id, the scanning flag and the number of open sessions; GET_SCAN_REPORT by exactly one SCAN_REPORT with the request's id; HUP, DATA_ACK and CONNECT are passed to the session they name; RESET_SVC_TABLE and SCAN_NETWORK issue exactly one command.", "quantifier": "every state and message", "why_tests_cant": "all states", "anchors": ["src/net/arrow/mod.rs: process_*"]}
{"id": "C36", "title": "Control messages first, in order", "statement": "Control messages created by the client protocol are sent in creation order and before any session message.", "quantifier": "every history", "why_tests_cant": "unbounded histories", "anchors": ["src/net/arrow/mod.rs: poll_next of ArrowClientContext"]}
{"id": "C37", "title": "Service ids are unique and consistent", "statement": "After any history of adding, updating and expiring services, looking up the id of a service and then the service of that id agree, no two services share an id, and no two ids share a service identity.", "quantifier": "every history starting from an empty table or one loaded from a file without duplicates", "why_tests_cant": "unbounded histories and hash collisions", "anchors": ["src/svc_table/mod.rs: ServiceTableData::add_service, get, get_id"]}
{"id": "C38", "title": "Service ids are stable", "statement": "A service keeps its id forever: no later add, update or expiry changes the id of a known service, and re-adding it (even with another IP address) returns the same id.", "quantifier": "every history", "why_tests_cant": "unbounded histories", "anchors": ["src/svc_table/mod.rs: add_element, update_element"]}
{"id": "C39", "title": "Id allocation always succeeds until the table is full", "statement": "Adding a service to a table with fewer than 65535 services finds a non-zero free id for every hash value; only a full table panics.", "quantifier": "every table and every hash function", "why_tests_cant": "needs all hash values and table contents", "anchors": ["src/svc_table/mod.rs: add_service (probing)"]}
{"id": "C40", "title": "Control service", "statement": "In every table built by the public operations id 0 always denotes the control service, the control service's id is always 0, and it is never listed as visible; adding it does not create another entry.", "quantifier": "every history", "why_tests_cant": "unbounded histories", "anchors": ["src/svc_table/mod.rs: get, get_id, visible, add"]}
{"id": "C41", "title": "Versions detect changes", "statement": "If the list of visible services differs between two moments, the visible version differs (as long as fewer than 2^w version increments lie in between); an operation that changes no visible data does not change it, so UPDATEs are neither lost nor sent without reason.", "quantifier": "every history", "why_tests_cant": "unbounded histories", "anchors": ["src/svc_table/mod.rs: add_element, update_element, update_active_services, service_table_version, visible_set_version"]}
{"id": "C42", "title": "Visibility", "statement": "After update_active_services a service is visible iff it was added, in the form in which it was last added, and either its first addition was static or its last addition is at most 1200 seconds ago; between updates adding affects no other service, a new service is visible at once, and a known one is visible iff it is static or was still active.", "quantifier": "every history and clock value", "why_tests_cant": "unbounded histories", "anchors": ["src/svc_table/mod.rs: ServiceTableElement::*, visible, update_active_services"]}
{"id": "C43", "title": "Service table survives save and load", "statement": "Saving a service table as JSON and loading it again yields a table with the same ids, services, static flags, last-seen times and active flags; only the enabled flag is reset to false.", "quantifier": "every table that can arise without a locked service whose path is present but empty (which is loaded as a service without a path)", "why_tests_cant": "unbounded tables", "anchors": ["src/svc_table/mod.rs: to_json, from_json"]}
{"id": "C44", "title": "Loading never yields two ids for one service", "statement": "Loading a saved table from any valid JSON keeps ids and identities consistent. (False in this code: two entries with the same identity or an entry of control type break it.)", "quantifier": "every valid JSON table", "why_tests_cant": "all file contents", "anchors": ["src/svc_table/mod.rs: ServiceTableData::from_json"]}
{"id": "C45", "title": "Retry policy", "statement": "After a failed connection: unauthorized is retried after 10 s while more than 10 min of the pairing window remain, after 30 s until the window ends, then never; unsupported protocol is never retried; any other error is retried so that attempts start at least 60 s apart (minus at most 0.5 s), and immediately if the attempt itself lasted longer.", "quantifier": "every time and error kind", "why_tests_cant": "all clock values", "anchors": ["src/client.rs: process_connection_error, wait_for_retry"]}
{"id": "C46", "title": "Redirects", "statement": "After a redirect the next attempt goes to the redirect target immediately; after any error the next attempt goes to the configured address; redirects are not rate limited (a server can make the client reconnect without pause for ever).", "quantifier": "every sequence of connection results", "why_tests_cant": "unbounded histories", "anchors": ["src/client.rs: ArrowMainTask::process_result"]}
{"id": "C47", "title": "Diagnostic mode exit code", "statement": "In diagnostic mode the process exits after the first connection result, with 0 iff the result was a redirect or 'unauthorized', else 1.", "quantifier": "every connection result", "why_tests_cant": "trivially finite, kept for completeness of the decision logic", "anchors": ["src/client.rs: diagnose_connection_result"]}
{"id": "C48", "title": "Listeners are told about real changes", "statement": "Every registered listener is told only about real changes of the connection state (scanner state) that happened after its registration, in order and each at most once, and about every change that is not overlapped by another report of a change; so when reports do not overlap it is told about every change exactly once, in order. The state read from the context is the one set last. When two threads report at the same time a notification can be lost.", "quantifier": "every interleaving of state changes, listener registrations and listener calls", "why_tests_cant": "unbounded histories and interleavings", "anchors": ["src/context.rs: set_connection_state, set_scanning, take_event_listeners, add_event_listeners"]}
{"id": "C49", "title": "At most one network scan at a time", "statement": "In every history at most one scanner thread is at work. A scan request starts a scan exactly when discovery is enabled and no scan is under way (started and its completion not yet handled); a periodic trigger needs in addition that no scan was completed within the last 300 s.", "quantifier": "every history of commands, worker steps, worker crashes, completions and dropped senders", "why_tests_cant": "interleavings of commands, worker threads and completions", "anchors": ["src/cmd_handler.rs: process_command, scan_network, periodic_network_scan, scan_completed"]}
{"id": "C50", "title": "Life of a scan", "statement": "What can be observed of scans is always one scan after the other, each as: start, scanning flag on, services put into the table and result stored (if the scan succeeded), flag off, completion; the flag is on exactly between. If the worker thread panics before signalling its end, no scan is ever started again and the flag stays as it was.", "quantifier": "every history incl. a crash of the worker at any point", "why_tests_cant": "crash points and interleavings", "anchors": ["src/cmd_handler.rs: scan_network, Event, network_scanner_thread"]}
{"id": "C51", "title": "The configuration is saved when needed", "statement": "An update of the service table writes the configuration file if it changed the services or, unless in flash-friendly mode, which of them are visible, and it writes it only if some step of the update changed such a thing. While saving works the file can be loaded at any time and then has the identity, version and services of the running client. A save that failed is not tried again until the next change.", "quantifier": "every history of starts, updates, resets, stops, crashes and failing saves; every list of found services", "why_tests_cant": "unbounded histories and all points at which writing can fail", "anchors": ["src/config.rs: update_service_table, save, build", "src/storage.rs: save_configuration_file, load_configuration_file"]}
{"id": "C52", "title": "Reset of the service table", "statement": "After a reset the table is the one the client started with: the services of the configuration that was loaded at the start plus the static services given to it (so services found in an earlier run are not forgotten). A connection established before a reset keeps the old table, which never changes again; without a reset it has the table of the client.", "quantifier": "every history, every reset in it", "why_tests_cant": "aliasing of shared references over unbounded histories", "anchors": ["src/config.rs: reset_service_table, build", "src/svc_table/mod.rs: Clone for SharedServiceTable", "src/net/arrow/mod.rs: ArrowClientContext.svc_table"]}
{"id": "C53", "title": "The identity survives restarts and crashes", "statement": "With a skeleton file, UUID and password are the same in every run after the first one, whatever crashes, failed or truncated writes of the configuration file and restarts happen, as long as the skeleton file can be read; a client with a missing or damaged configuration starts with the identity of the skeleton. Without a skeleton one crash while saving loses the identity; and if the skeleton cannot be read at one start with a damaged configuration it is overwritten with a new identity.", "quantifier": "every history of starts, updates, resets, stops, and crashes at every byte of every write", "why_tests_cant": "all crash points in all histories", "anchors": ["src/storage.rs: load_configuration, save_configuration_file", "src/config.rs: to_skeleton, save"]}
{"id": "C54", "title": "Arrow service address", "statement": "If the command line is accepted, then a first argument without a colon, or one that ends with a closing bracket, is used with ':8900' appended, and any other first argument is used as it is; so the address always is some text, a colon and a text without colons. (An IPv6 address without brackets therefore keeps its last group as the port.)", "quantifier": "every accepted command line", "why_tests_cant": "all strings", "anchors": ["src/config.rs: arrow_service_address, ConfigParser::parse"]}
{"id": "C55", "title": "Invented MAC addresses of static services", "statement": "The MAC address of a static service is ff:ff followed by the last four bytes of its IP address: different for different IPv4 addresses, equal for two IPv6 addresses exactly if their last 32 bits agree, and equal for an IPv4 and an IPv6 address exactly if the latter ends with the former. If two static services with different addresses have the same MAC address, port, type and path, then the service table knows only the one added last.", "quantifier": "all addresses, all services, every reachable service table", "why_tests_cant": "2^32 and 2^128 domains, all table histories", "anchors": ["src/config.rs: get_fake_mac", "src/svc_table/mod.rs: add_static"]}
{"id": "C56", "title": "One service per host is kept", "statement": "Filtering duplicate services keeps exactly one service for every IP address that has one: of the services with that address, the first one whose port comes earliest in the list of candidate ports; a host with one service keeps it. The filter goes by the IP address only: of two devices with different MAC addresses and one IP address, one is dropped.", "quantifier": "every list of services, every list of candidate ports without repetition", "why_tests_cant": "unbounded lists", "anchors": ["src/scanner/discovery.rs: filter_duplicit_services, get_port_priorities"]}
{"id": "C57", "title": "Scan result merging", "statement": "A scan result that was built by adding hosts, ports and services and by merging results contains exactly the hosts, flags, ports and services that were added to any of its parts, independent of order and repetition for hosts, flags and ports; for services the one reported last for a key wins, so there the order of merging matters.", "quantifier": "every history of additions and merges", "why_tests_cant": "unbounded histories", "anchors": ["src/scanner/result/mod.rs"]}
{"id": "C58", "title": "Stream selection", "statement": "For every server and every list of paths, the RTSP service reported is the first probed path that is either supported (status 200 with a session description that has a video in a supported encoding) or locked (status 401; reported without a path); if there is none, the last unsupported path (status 200 otherwise); if there is none, the server alone. For HTTP servers the first path that is supported (status 200 with a picture content type) or locked is reported, or nothing. Servers that answer every path are believed for two paths only. In particular a locked path hides the supported paths after it.", "quantifier": "every list of paths, every sequence of answers to the requests (including none and garbage)", "why_tests_cant": "unbounded lists of paths and arbitrary answers", "anchors": ["src/scanner/discovery.rs: find_rtsp_stream, get_rtsp_stream, get_rtsp_stream_type, find_mjpeg_path, get_mjpeg_stream, is_hipcam_rtsp_response, is_supported_rtsp_service, is_supported_mjpeg_service"]}
{"id": "C59", "title": "URL components", "statement": "Parsing scheme://[user[:password]@]host[:port][/path[?query][#fragment]] returns exactly these components, for all components that can be told apart (no ':' in the scheme or user name, no '/' before the path, no '@' in the host, no '?' in the query, no '#' in the fragment, ...), the port being a decimal number up to 65535; every accepted string is the concatenation of the components handed out and their delimiters; every other string is refused; neither the parser nor an accessor panics. Without a slash a query or fragment becomes part of the host, and an IPv6 address without brackets is cut in two.", "quantifier": "every string", "why_tests_cant": "all strings, including multi-byte characters next to every delimiter", "anchors": ["src/net/url.rs: Url::from_str, init, process_hierarchy, process_authority, process_user_info, process_path, accessors"]}
{"id": "C60", "title": "Responses and lines do not depend on packet boundaries", "statement": "The answer of the HTTP and RTSP clients, and the lines of the line decoder, depend only on the bytes the server sends, not on how they are cut into packets. The decoder returns exactly the bytes up to the separators, keeps less than the limit, and an error comes only from a line that reaches the limit or is not UTF-8. A header line of more than the limit makes the request fail. What was returned while the connection was open is not changed by later data.", "quantifier": "every stream, separator, limit and split", "why_tests_cant": "exponentially many splits of unbounded streams", "anchors": ["src/net/http/generic.rs: LineDecoder", "src/net/http/mod.rs: ClientCodec", "src/net/rtsp/mod.rs: ClientCodec"]}
{"id": "C61", "title": "Bodies of a known or unknown length", "statement": "A body with an announced size n consists of exactly the n bytes behind the header; while the connection is open there is a response exactly when n bytes have arrived. A body without a length is everything up to the end of the connection. A connection that ends early is not noticed: the response is accepted with the part of the body that arrived.", "quantifier": "every stream, size and split", "why_tests_cant": "unbounded", "anchors": ["src/net/http/generic.rs: FixedSizeBodyDecoder, SimpleBodyDecoder", "src/net/http/mod.rs: ClientCodec::decode"]}
{"id": "C62", "title": "Chunked bodies", "statement": "A body transferred in chunks decodes to the concatenation of the chunks, for every way to chunk the body and every way to cut the stream; while the connection is open there is a response exactly when the last chunk and the trailer have arrived. Wherever the stream is cut behind the header, the response is still accepted, with the first part of the body; bytes between a chunk and the next line end are dropped.", "quantifier": "every chunk list, size line, trailer and split", "why_tests_cant": "unbounded", "anchors": ["src/net/http/generic.rs: ChunkedBodyDecoder"]}
{"id": "C63", "title": "Which responses are accepted, and what they say", "statement": "A response is returned exactly if the stream begins with a well-formed header of at most 1024 lines of at most 4096 bytes, with an accepted protocol and version, and a body; the response shows its protocol, version, status, reason, fields in order with continuation lines joined, and its body. More lines are an error. After a header the decoder is ready for the next one.", "quantifier": "every byte stream", "why_tests_cant": "unbounded", "anchors": ["src/net/http/generic.rs: ResponseHeaderDecoder, ResponseHeader", "src/net/http/mod.rs: Response::new", "src/net/rtsp/mod.rs: Response::new"]}
{"id": "C64", "title": "Header field lookup ignores the case", "statement": "After any history of add and set, the fields are in order, a lookup returns those whose names are equal in lower case, and the value of a field is that of the last one; set replaces all earlier ones, add keeps them.", "quantifier": "every history of set/add/get", "why_tests_cant": "unbounded histories", "anchors": ["src/net/http/generic.rs: HeaderFields"]}
{"id": "C65", "title": "SDP parsing", "statement": "Parsing a session description succeeds exactly if its lines are within the limit (less than 4096 bytes, or at most 4096 for a last line without end), its version lines, media lines and the attribute lines of its media sections are well formed, and there is stack for one nested call per media or time line; the result is then what a line-by-line reading gives: the number of the last version line and every media line with the attributes that follow it up to the next media or time line. Attribute lines before the first media line, or after a time line that follows a media line, have no effect. The parser never panics, but its recursion is unbounded: for every stack size, a correct text of two bytes per available call overflows it.", "quantifier": "every SDP text and every stack size", "why_tests_cant": "all texts", "anchors": ["src/net/rtsp/sdp.rs"]}
{"id": "C66", "title": "Checksums are valid", "statement": "The header checksum of every IPv4 packet with at most ten option words, and the checksum (with pseudo header) of every TCP segment with at most ten option words and less than 64 KiB, verify according to RFC 1071. The checksum of an ICMP echo request verifies exactly if its sequence number is below 256. All probes of the network scanners carry valid checksums.", "quantifier": "every header, option list, payload, network interface, host list and port collection", "why_tests_cant": "unbounded payloads", "anchors": ["src/net/raw/utils.rs: sum_raw_be, sum_to_checksum", "src/net/raw/{ip,tcp,icmp}.rs"]}
{"id": "C67", "title": "Packet layout and round trip", "statement": "The fields of serialized Ethernet, ARP, IPv4, ICMP and TCP packets are at the positions of the respective RFCs, and a serialized frame followed by any bytes is parsed back to the packet that was serialized, with these differences: the IPv4 total length is filled in, the TCP urgent pointer becomes 0, and bytes that follow (e.g. Ethernet padding) become part of the payload. A packet with more than ten option words cannot be represented; parsing what is written for it can panic.", "quantifier": "every packet whose fields fit and every trailing byte string", "why_tests_cant": "unbounded payloads", "anchors": ["src/net/raw/ether/packet.rs", "src/net/raw/{arp,ip,tcp,icmp}.rs"]}
{"id": "C68", "title": "Parsing received frames", "statement": "Parsing a received frame aborts the client exactly if it is an IPv4 packet with a header length below 20 bytes or a TCP segment with a data offset below 20 bytes (candidate defect: any host on the network can do that); it is an error exactly if the frame is truncated; any other frame is accepted.", "quantifier": "every byte string; 32 and 64 bit", "why_tests_cant": "all byte strings", "anchors": ["src/net/raw/ip.rs: parse", "src/net/raw/tcp.rs: parse", "src/utils/mod.rs: vec_from_raw_parts_unaligned"]}
{"id": "C69", "title": "Host enumeration", "statement": "The ARP and ICMP scanners send exactly one well-formed request for every address strictly between network and broadcast address of the interface, in ascending order, and no other frame; if a write fails, a proper prefix of them. For a network with m host bits these are its 2^m - 2 inner addresses. On an interface with address and mask 255.255.255.255 the whole address space is probed (candidate defect).", "quantifier": "every address and mask", "why_tests_cant": "2^64 combinations", "anchors": ["src/net/raw/arp.rs: scanner", "src/net/raw/icmp.rs: scanner", "src/net/raw/pcap/mod.rs: send_packets"]}
{"id": "C70", "title": "Port enumeration", "statement": "A TCP port scan sends exactly one well-formed SYN for every port of every range of the port collection to every host, in order, provided that no range is empty and none is the single port 65535; such a range hides all later ranges, and the port 65535 is never probed (candidate defects).", "quantifier": "every port collection and host list", "why_tests_cant": "unbounded lists", "anchors": ["src/net/raw/tcp.rs: PortCollection, iterators, scanner"]}
{"id": "C71", "title": "MAC address text", "statement": "Printing a MAC address and parsing the text gives the same address. Parsing accepts a text iff it is six pieces separated by colons, each one or more hexadecimal digits in either case, perhaps behind a plus sign, with a value of at most 255; the values are the bytes of the address.", "quantifier": "2^48 addresses, all strings", "why_tests_cant": "domain too large", "anchors": ["src/net/raw/ether/mod.rs: impl FromStr for MacAddr", "src/net/raw/ether/mod.rs: impl Display for MacAddr"]}
{"id": "C72", "title": "Log rotation", "statement": "With at least one backup configured, the log files read from the oldest backup to the log file hold the old contents followed by the lines written, in order and unsplit, and only a part at the beginning may be missing, and only when the two newest files hold more than the limit. A file larger than the limit is a single message or was already there. No other files are touched. The process aborts iff the files cannot be written when a message that reaches the level is logged. With no backups configured a rotation counts through all values of usize.", "quantifier": "every initial set of files, every limit and number of backups, every sequence of calls", "why_tests_cant": "unbounded histories", "anchors": ["src/utils/logger/file.rs: InternalFileLogger::write", "src/utils/logger/file.rs: InternalFileLogger::rotate", "src/utils/logger/file.rs: FileLogger::new"]}
{"id": "C73", "title": "Log level filter", "statement": "A message is written iff its severity is at least the level in force when it is logged, at first INFO; lines are written in the order of the calls; a message below the level has no effect at all.", "quantifier": "every sequence of messages and level changes", "why_tests_cant": "unbounded histories", "anchors": ["src/utils/logger/file.rs: InternalFileLogger::log", "src/utils/logger/mod.rs: Severity"]}
{"id": "C74", "title": "The server connection is woken for session output", "statement": "Once the sender of messages to the server has been told that nothing is to be sent, it is woken before anything to be sent by the session manager (new HUP, data, DATA_ACK, end of a session) exists.", "quantifier": "every interleaving of server messages, service I/O and polls", "why_tests_cant": "lost wake-ups show up only in particular schedules", "anchors": ["src/net/arrow/session.rs: SessionManager::poll_next, connect, send, SessionContext"]}
{"id": "C75", "title": "Size of the polling rotation", "statement": "The polling rotation holds at most one entry per open session. (False in this code: sessions closed by the server leave their entry behind until it is polled, and reopening the same id adds another one, which then stays for as long as the session is open.)", "quantifier": "every history", "why_tests_cant": "unbounded histories", "anchors": ["src/net/arrow/session.rs: SessionManager::connect, close, poll_next"]}
{"id": "C76", "title": "The server knows the visible services", "statement": "After each check of the service table (every 5 s), the service list last sent to the server is the list of services visible at that time. (False in this code if the table changes between the two reads made for one message: the services are read before the version that is remembered, so a change in between is never announced. Proved under the assumption that no such change happens.)", "quantifier": "every history and every change of the service table by other threads", "why_tests_cant": "depends on the interleaving of threads", "anchors": ["src/net/arrow/mod.rs: send_register_message, send_update_message, check_for_updates"]}
{"id": "C77", "title": "The sender is never forgotten", "statement": "If the task sending messages to the server was told to wait, and neither the client protocol nor a session has woken it since, there is nothing to send.", "quantifier": "every interleaving of server messages, time events, session I/O and polls", "why_tests_cant": "lost wake-ups show up only in particular schedules", "anchors": ["src/net/arrow/mod.rs: send_control_message, process_redirect_message, poll_next"]}
{"id": "C78", "title": "A connection never panics", "statement": "No sequence of messages from the server, time events and session events makes the connection panic (the internal expect calls never fail).", "quantifier": "every history", "why_tests_cant": "all message contents and histories", "anchors": ["src/net/arrow/mod.rs: process_*"]}
{"id": "C79", "title": "The id a new service gets is fixed by its identity", "statement": "The bytes that are hashed to choose the id of a service have a fixed format (the number of its kind, then MAC address, port and path with tags), the same in every version of the program. Two different service identities give different bytes, so preferred ids collide only if the hash function does. A service that is added and not known yet gets the first id no service has, counting from the low 16 bits of that hash.", "quantifier": "every service identity and pair of identities; every table that can arise; every hash function", "why_tests_cant": "unbounded paths, all addresses, all tables", "anchors": ["src/svc_table/service.rs: ServiceIdentifier, StableHashOption, StableHashString", "src/net/raw/ether/mod.rs: Hash for MacAddr", "src/svc_table/mod.rs: add_service, add_element, stable_hash"]}
{"id": "C80", "title": "Reported connection state", "statement": "The connection state is set to 'connected' when an attempt begins - before a connection exists - and after a failure to 'unauthorized' if the server refused the client, 'disconnected' otherwise; a redirect does not change it, and nothing else sets it.", "quantifier": "every sequence of connection results", "why_tests_cant": "unbounded histories", "anchors": ["src/client.rs: ArrowMainTask::connect, process_result", "src/context.rs: set_connection_state"]}
{"id": "C81", "title": "Sessions are independent", "statement": "Every open session behaves as if it were alone: it sees exactly the payloads, acknowledgements and service I/O addressed to its id since it was opened, in order, and the messages sent to the server for its id are exactly the ones it produced, in order. In particular the flow control window is respected per session.", "quantifier": "every history of the session manager and every session id", "why_tests_cant": "unbounded histories and interleavings", "anchors": ["src/net/arrow/session.rs: SessionManager"]}
{"id": "C82", "title": "Refusals are answered exactly once", "statement": "For each refused CONNECT and each data message for an unknown session exactly one HUP with the code 'connection error' is sent, in the order of the refusals.", "quantifier": "every history of the session manager", "why_tests_cant": "unbounded histories", "anchors": ["src/net/arrow/session.rs: SessionManager::connect, send, poll_next"]}
{"id": "C83", "title": "The command handler never ends", "statement": "The command handler task goes on waiting for ever, even when the client is closed and every other holder of the command channel is gone, because it holds a sender of its own channel; so sending a command never fails.", "quantifier": "every history of commands, worker steps, crashes, completions and dropped senders", "why_tests_cant": "unbounded histories; a test cannot observe that a task never ends", "anchors": ["src/cmd_handler.rs: CommandHandlerTask, new", "src/client.rs: close"]}
{"id": "C84", "title": "Meaning of the command line", "statement": "Reading the arguments never panics. If every option is known and has an acceptable value, the command line is accepted and every setting has the value of the last option that sets it (or the default; lists collect all values in order). Otherwise the first argument that is not acceptable decides: --help and --version end the process, an unknown argument, a missing value and a bad value are errors. The first argument is always the address, so --help and --version are not recognised there; --flash-friendly is accepted but never reaches the configuration.", "quantifier": "every list of arguments, every environment (name resolution, network interfaces)", "why_tests_cant": "unbounded lists of options in every order", "anchors": ["src/config.rs: ConfigParser::parse, ConfigParser::build"]}
{"id": "C85", "title": "Static services given by URL", "statement": "An RTSP (MJPEG) URL is accepted exactly if it is a URL with scheme rtsp (http), in any case, whose host resolves together with its port (default 554, 80); the service then has that address, the path and query of the URL as its path, and is a locked service exactly if the URL has a user name. The credentials themselves are not kept. Nothing panics.", "quantifier": "every URL text, every name resolution", "why_tests_cant": "all strings", "anchors": ["src/config.rs: parse_rtsp_url, parse_mjpeg_url"]}
{"id": "C86", "title": "The report of a network scan is exact", "statement": "For every set of network devices, every result of the raw scanners and every behaviour of the hosts, the report of a network scan contains exactly the hosts and open ports found on the scanned devices (with the flags saying how), and exactly the services that follow from the answers: for every IP address one RTSP and one HTTP server, on the most preferred port that answers, together with the stream found on it. A device one of whose scanners fails contributes nothing. The scan never fails; it aborts the client if and only if a selected RTSP server answers one of the probed paths with a length that cannot be allocated or with a session description with more media and time lines than fit on the stack.", "quantifier": "all devices, whitelists, scanner results, answers, path lists and iteration orders of the hash maps", "why_tests_cant": "the networks, answers and iteration orders are unbounded", "anchors": ["src/scanner/discovery.rs: scan_network, find_open_ports, find_open_ports_in_network, find_rtsp_services, find_http_services, filter_duplicit_services"]}
{"id": "C87", "title": "A server cannot crash the client with a response, except by one number", "statement": "Receiving a response panics exactly if the body is not ignored and the header announces a length above isize::MAX that fits into a usize; header requests and OPTIONS requests never panic.", "quantifier": "every byte stream and split", "why_tests_cant": "unbounded input", "anchors": ["src/net/http/generic.rs: FixedSizeBodyDecoder::new", "src/net/rtsp/mod.rs: ClientCodec::decode"]}
{"id": "C88", "title": "The bytes of a request", "statement": "For every URL, the HTTP client connects to its host and port (80 by default) and sends exactly the method, path and query, with a Host and a User-Agent field; the RTSP client connects to host and port (554) and sends the whole URL, CSeq and User-Agent, and for DESCRIBE an Accept field. URLs with another scheme and texts that are not URLs are refused; nothing panics. set_header_field of the HTTP client adds a second field instead of replacing the first.", "quantifier": "every URL, method and version", "why_tests_cant": "unbounded input", "anchors": ["src/net/http/mod.rs: Request", "src/net/rtsp/mod.rs: Request", "src/net/http/generic.rs: RequestHeader, HeaderFields"]}
{"id": "C89", "title": "Results of network scans", "statement": "A scan listens until 20 seconds after its start or until two seconds pass without a packet. If all packets were sent, an ARP scan reports the sender addresses of the ARP packets captured until then, an ICMP scan the senders of the IPv4 packets from the interface's network and a TCP scan the senders and ports of the TCP segments, in the order of arrival. A malformed frame (C68), or for an ARP scan an ARP packet with other address lengths than 6 and 4, aborts the client. If the device cannot be opened or a packet cannot be sent, the scan fails. The two seconds start before the first packet is sent, so answers to packets sent later can be lost (candidate defect).", "quantifier": "every sequence of captured frames and clock readings", "why_tests_cant": "unbounded sequences of frames and times", "anchors": ["src/net/raw/pcap/mod.rs: sr, packet_listener", "src/net/raw/{arp,icmp,tcp}.rs: scan_device, scan_ipv4_hosts"]}
{"id": "C90", "title": "One client per lock file", "statement": "With a lock file, at no moment do two clients run: whatever processes start, fail, end or crash and however their system calls interleave, at most one that uses the file is running. A start is refused only if another process holds the lock or a system call fails; a running client cannot be stopped by others; when all others have ended or were refused, the next start succeeds and the file holds its process number and an end of line, whatever was left there. Candidate defects: the file is emptied before the lock is tried, so a refused second start removes the number of the running client; numbers of processes that start at the same time can mix.", "quantifier": "every interleaving of the system calls of any number of processes, with every failure and every moment of ending", "why_tests_cant": "unbounded interleavings of several processes and crash points", "anchors": ["src/storage.rs: DefaultStorage::builder, DefaultStorage::_lock_file"]}
{"id": "C91", "title": "Files with paths for the scanner", "statement": "The paths read from a file are exactly its lines that do not begin with '#', in order; lines end with LF or CR LF and the last one needs no end. The file is used iff it can be read to its end and is UTF-8 as a whole; otherwise there is a warning and none of its paths is used. All paths are UTF-8. Empty lines are paths.", "quantifier": "every content of the file and every failure of reading", "why_tests_cant": "all texts", "anchors": ["src/storage.rs: load_paths, load_rtsp_paths, load_mjpeg_paths", "src/config.rs: ConfigBuilder::build"]}
{"id": "C92", "title": "The connection state file", "statement": "The file is written exactly when the connection state changes. While a client runs whose last change was written without error, the file holds one line with its current state. Whatever fails or crashes, the file holds its first content or the beginning of such a line, and a whole line if no write is cut short. Without changes or without a file set nothing is written. Candidate defects: a failed write is not repeated; after a restart the file says the last state of the previous run until the first change.", "quantifier": "every history of starts, ends and state changes by any number of threads, with every outcome of each write", "why_tests_cant": "unbounded histories with crashes at every byte", "anchors": ["src/storage.rs: save_connection_state", "src/config.rs: update_connection_state", "src/context.rs: set_connection_state"]}
{"id": "C93", "title": "Certificates of authorities", "statement": "From a given path the client loads the certificates of all files at any depth whose name ends with .der, .cer, .crt or .pem in any case, and nothing else; it reports success iff every directory can be listed and every such file can be loaded. The given paths do not affect each other; the ones with a failure are exactly those in the warnings, and the client goes on. Candidate defect: within a given directory everything listed after the first failing entry is ignored; a DER file is such an entry, because files are loaded as PEM.", "quantifier": "every tree of directories and files, every failure", "why_tests_cant": "trees of any depth and size", "anchors": ["src/storage.rs: load_ca_certificates, is_cert_file"]}
{"id": "C94", "title": "The C interface tells exactly the visible services", "statement": "A C program that asks a client for its service table gets one entry for each visible service and no other (never the control service). Each entry tells the id, the type code of the header file, the MAC address, IP version and address, port and path of that service, and nothing is lost: the entry determines the service. Only the bytes of an address are written to the caller's buffer. An index beyond the count aborts. (Finding: a NUL in the path of a visible service aborts the process of every program that asks for the table.)", "quantifier": "every service table that any history of additions, expiries and loads can produce, every buffer content", "why_tests_cant": "It must hold for every reachable table: any number of services of any type, address family and path.", "anchors": ["src/exports/svc_table.rs: NativeServiceTable::from, NativeService::new, ac__service_table__get_service, ac__service__get_*", "src/client.rs: ArrowClient::get_service_table", "src/exports/mod.rs: ac__arrow_client__get_service_table", "include/arrow_client.h"]}
{"id": "C95", "title": "Life of a client: start once, close, end", "statement": "A client is started at most once: the first start call gets the task, every later one gets nothing; before the start nothing runs. Scan and rescan calls send exactly their commands, in order, until the client is closed, and nothing afterwards. After a close, the client does at most the one piece of work that was already in progress, then its task ends; it never ends otherwise, and only once. A client that is never closed never panics. (Finding: closing a client while a network scan is running makes the scanner thread panic at its end, and the release build aborts the whole process; the connection state reported after a close is that of the time of the close.)", "quantifier": "every interleaving of application calls, task polls, periodic triggers, command handling and scanner thread steps", "why_tests_cant": "The outcome depends on the interleaving of the application with two tasks, the runtime and the scanner threads; a test sees a few schedules.", "anchors": ["src/client.rs: ArrowClient::new_with_connector, scan_network, rescan_network, close", "src/exports/mod.rs: ac__arrow_client__start, ac__arrow_client__start_blocking, ac__arrow_client__close, ac__arrow_client__free", "src/cmd_handler.rs: CommandHandlerContext::scan_network", "src/runtime.rs: run"]}
{"id": "C96", "title": "An application's own storage: what it is asked, given and freed", "statement": "With a custom storage (functions of the C application that load and save the configuration and load the paths), a start of the client calls each given function at most once, in a fixed order, and saves only the configuration it loaded (or created, if the load function answers NULL). If loading fails, or the text is not UTF-8, not JSON or lacks fields, there is no client and nothing is saved, so nothing is overwritten. If saving fails there is no client. Every block the functions hand over is freed exactly once, whether its content is usable or not; one path that is not UTF-8 drops the whole list with a warning. A text that was saved and is given back at the next start yields the same identity, version and services under the same ids. Answering success with a NULL array of paths is undefined behaviour.", "quantifier": "all heaps, all answers of the functions, all configurations that can arise, all times", "why_tests_cant": "the functions belong to the application; memory safety depends on every possible answer and layout of the blocks", "anchors": ["src/exports/storage/custom.rs: CustomStorage, load_paths, ac__custom_storage_builder__*", "src/exports/mem.rs: ac__malloc, ac__free", "src/config.rs: ConfigBuilder::build", "src/exports/mod.rs: ac__arrow_client__new"]}
{"id": "C97", "title": "Connecting: which address, when, and for which name", "statement": "When the client connects to the service, the addresses of the name lookup are tried in their order, each at least 1 s after the one before, and never more than four without an answer. The connection is made with the first address in this order that accepts, as soon as it and all before it have been answered and its TLS handshake is done; only this address gets a handshake. If all refuse, connecting fails when the last one is answered. The whole takes at most 20 s, lookup and handshake included; otherwise it ends with a timeout. An address that never answers blocks all later ones until the timeout, even if they accept; addresses from the 21st on are never reached. The certificate is checked for the text before the last colon of the address (for IPv6 with its brackets).", "quantifier": "all lists of addresses with all delays and answers (also none), all lookup and handshake times, all addresses as text", "why_tests_cant": "the result depends on the timing of every attempt; no finite set of timings covers the interplay of delays, the queue and the timeout", "anchors": ["src/net/tls.rs: TlsConnector::connect", "src/net/arrow/mod.rs: connect, CONNECTION_TIMEOUT"]}
{"id": "C98", "title": "Loggers write exactly the messages that reach their level, and clones share a level only where they should", "statement": "After any history of creating loggers (standard error, syslog, application callback, dropping), cloning them, setting levels and logging, a message sent through a logger is output exactly if its severity is at least the level of that logger: as one line on standard error (colored if asked for), as one syslog call with the matching priority and the place and text with NULs escaped, or as one call of the application's function with its file, line, severity and text. The level of a logger is what was last set on it, except that clones of one callback logger share it; a clone starts with the level of its original. Creating, cloning and setting levels output nothing. Logging aborts the process only if the message reaches the level and standard error cannot be written or, with a callback, there is a NUL in the file name or text.", "quantifier": "all histories of operations on any number of loggers and clones, all messages and levels, all outcomes of writing to standard error", "why_tests_cant": "which level is in force depends on the whole history of clones and level changes through other handles, and message texts are unbounded", "anchors": ["src/utils/logger/mod.rs: BoxLogger, DummyLogger", "src/utils/logger/stderr.rs: StderrLogger", "src/utils/logger/syslog.rs: Syslog", "src/exports/logger.rs: CallbackLogger, ac__logger__clone"]}
{"id": "C99", "title": "The asynchronous TLS streams are faithful to OpenSSL, never lose a wake-up and never mix tasks or threads", "statement": "However the polls of any number of TLS connections by any number of tasks and threads interleave, and whatever the TCP streams answer: each poll of a connection (starting and continuing the handshake, reading, writing, flushing, shutting down) does with the TCP stream exactly what OpenSSL asks for, tells OpenSSL exactly the answers (\"would block\" for \"pending\"), continues from the state in which the previous poll of this connection left OpenSSL, and returns OpenSSL's result (\"pending\" for \"would block\"); a shutdown then shuts the TCP stream down. All requests during a poll are made with the waker of the task that polls. If a poll returns \"pending\", its last request to the TCP stream was not ready and has registered this waker. No poll panics, and no waker is kept after a poll.", "quantifier": "all interleavings of steps of any number of threads and connections, all behaviours of the TCP streams, all states and behaviours of OpenSSL that report \"would block\" only after the stream did and respect the buffer length", "why_tests_cant": "the waker is handed over through a variable of the thread; whether it is the right one depends on how polls interleave on threads, and a lost wake-up shows up as a connection that hangs rarely", "anchors": ["src/net/tls.rs: ASYNC_CONTEXT, set_async_context, with_async_context, InnerSslStream, TlsStream, TlsConnect, TlsConnector::connect"]}
{"id": "C100", "title": "Every connection to the service requires TLS 1.2 or later and a verified certificate", "statement": "Whatever the TLS library starts with, whatever storage is used and whatever its functions do with the certificate store: a connection to the Arrow service is made only with verification of the service's certificate switched on, without compression, with the fixed list of ciphers, and with TLS 1.2 or 1.3; if these settings cannot be made, no connection is tried. With the default storage, certificate paths that fail never prevent a connection, and the trusted authorities are those of the TLS library plus certificates of the given paths (all of them for each path without failures), and nothing else.", "quantifier": "all initial states of the TLS library's builder, all storages, all programs of an application's certificate function, all file trees, all servers", "why_tests_cant": "A test connects with one library, one set of files and one server; the settings must hold for every order of calls an application may make and every state the library starts with.", "anchors": ["src/config.rs: Config::get_tls_connector, SSL_CIPHER_LIST", "src/storage.rs: DefaultStorage::load_ca_certificates", "src/exports/storage/custom.rs: CustomStorage::load_ca_certificates", "src/exports/storage/ca.rs", "src/net/arrow/mod.rs: connect"]}
{"id": "C101", "title": "A CA certificate an application loads successfully is one the service is verified against", "statement": "If an application's certificate function, called through the C interface, is told by ac__ca_cert_storage__load_ca_file, _load_pem or _load_der that a certificate was loaded (return value 0), and the function itself returns 0, then the following connection trusts this certificate; a function that returns another value prevents the connection.", "quantifier": "all applications (programs of calls, each depending on the results of those before), all certificates, all initial trusted certificates", "why_tests_cant": "The claim is about every sequence of calls an application can make, with every outcome of parsing; the difference shows only in the handshake with a server.", "anchors": ["src/exports/storage/ca.rs: ac__ca_cert_storage__load_ca_file, ac__ca_cert_storage__load_pem, ac__ca_cert_storage__load_der", "src/exports/storage/custom.rs: CustomStorage::load_ca_certificates", "src/config.rs: Config::get_tls_connector"]}
{"id": "C102", "title": "Clients that share a lock file act as if run one after another", "statement": "Any number of client processes that are started, used, killed and restarted in any interleaving with the same lock file leave exactly the files, and the sequence of writes to the configuration file, that a single client leaves which is started, used and stopped repeatedly, and the process that runs has in memory what that client has. Every write to the configuration, skeleton or identity file is made by the process that holds the lock, while no other does. On a new device with a readable skeleton file every client that ever runs therefore has the same identity. Without the lock file this fails: two clients started at the same time run with two identities and the files keep only one.", "quantifier": "all initial files; all interleavings of the single file accesses of all processes, with any outcome of each access, kills between and in the middle of them, any services, any clock", "why_tests_cant": "The accesses of the processes interleave in unboundedly many ways and a process can be killed at every one of them.", "anchors": ["src/storage.rs: DefaultStorage::builder, DefaultStorage::load_configuration, save_configuration_file, save_identity_file", "src/config.rs: ConfigParser::build, ConfigBuilder::build, Config::update_service_table, Config::reset_service_table, Config::save"]}
{"id": "C103", "title": "A tunnel carries exactly the bytes of the two ends", "statement": "On every connection to the server, for every open tunnel: what the local service has sent since the tunnel was opened is exactly, byte for byte and in order, the payload the client has sent to the server for this tunnel's session id since then, followed by what the client still buffers; after any cutting of the client's byte stream by the network the server decodes exactly these messages. What was written to the local service is the beginning of the payload the server sent for this session id after the message that opened the tunnel, followed by the buffered bytes; nothing the server sent is dropped as long as the tunnel has no reason to end. Bytes of other tunnels never get in between. Flow control holds from end to end: the payload sent to the server exceeds what the server acknowledged by at most 65536 bytes; only bytes written to the service are acknowledged to the server; and as long as the tunnel has no reason to end, the payload received exceeds what was acknowledged by at most 65536 bytes.", "quantifier": "all configurations, all sequences of messages from the server (cut into pieces in any way), all I/O results of all services and all schedules of the tasks, any number of tunnels, session ids reused after a tunnel's end; session ids below 2^24 and services other than 0", "why_tests_cant": "The bytes of all tunnels are interleaved in unboundedly many ways with each other, with control messages, acknowledgements and closing sessions.", "anchors": ["src/net/arrow/mod.rs: ArrowClientContext::process_arrow_message, process_service_request_message, poll_next", "src/net/arrow/session.rs: SessionManager::send, SessionManager::poll_next, SessionContext, SessionTransport::poll", "src/net/arrow/proto/msg/mod.rs: ArrowMessage::encode, ArrowMessage::decode", "src/net/arrow/proto/codec.rs: ArrowCodec"]}
{"id": "C104", "title": "A service id always means the same service", "statement": "If the client tells the server, in a REGISTER, UPDATE or SCAN_REPORT message, that a service has the id i, then every connection the client opens because the server asks for the id i goes to a service of the same type, on the device with the same MAC address and at the same port (only the IP address may change); and two services told to the server have the same id exactly if they are the same service (type, MAC address, port, path). On one connection to the server this holds whatever happens to the client in the meantime, including resets of the service table and saves that fail. Over several connections and restarts it holds as long as the services are not reset, saving works, the configuration file can be read at every start and the service table does not get full.", "quantifier": "all histories of the client (starts, discoveries, expiries, resets, stops, crashes while saving), all configurations, all sequences of messages of the server and schedules of the connection, and all moments at which the connection looks at the table that discovery changes concurrently, also in the middle of an update", "why_tests_cant": "The id told and the id asked for may be separated by any number of discoveries, expiries, address changes and restarts, and the reads and the changes of the table interleave in unboundedly many ways.", "anchors": ["src/svc_table/mod.rs: ServiceTableData::update, SharedServiceTable::add, SharedServiceTableRef", "src/config.rs: Config::update_service_table, Config::reset_service_table", "src/storage.rs: Storage::load_configuration", "src/net/arrow/mod.rs: ArrowClientContext::send_register_message, send_update_message, process_connect_message, process_get_scan_report_message", "src/net/arrow/session.rs: SessionManager::connect_inner"]}
{"id": "C105", "title": "Ownership of the objects of the C interface", "statement": "An application that passes to the functions of the C interface only pointers that it has, of the type the function expects, and no pointer again that a function has taken over or released, never causes undefined behaviour (no use after free, no double free, no object used with another type), whatever the clients and their threads do meanwhile. These rules are also necessary. At every moment the objects that exist are exactly those the application has pointers to; when it has given back all of them, nothing is leaked and every client is closed. No call aborts the process except asking a service table for an index that is too large. (The header states these rules except for one: it does not say that ac__default_storage_builder__set_logger takes over the logger; an application that follows only the header frees it twice.)", "quantifier": "all sequences of calls of the functions (except those that add certificates inside a callback, see C101), with all arguments and all results of opening files, locks and storages, interleaved with all steps of any number of clients, their tasks and scanner threads and their callbacks", "why_tests_cant": "Whether a pointer may be passed depends on the whole history of the calls; leaks and double frees show up only for particular orders of calls, failures and threads.", "anchors": ["include/arrow_client.h", "src/exports/mod.rs: all functions", "src/exports/config.rs: all functions", "src/exports/logger.rs: all functions", "src/exports/mem.rs: ac__malloc, ac__free", "src/exports/storage: all functions", "src/exports/svc_table.rs: all functions"]}
{"id": "C106", "title": "No callback after everything was given back", "statement": "When an application has given back every pointer it got from the C interface and the threads of its clients are over, the library never again calls back with any opaque pointer the application has given it (loggers, storages, listeners), and holds no lock file: another storage can be created with it. False of the code with discovery: after the client was freed and its thread joined, a scanner thread can still be at work; it calls back with the opaque pointer and holds the lock.", "quantifier": "all sequences of calls, steps of clients, tasks and scanner threads and callbacks before that moment, and all continuations after it", "why_tests_cant": "A callback after the release depends on the schedule of threads that the application neither sees nor can wait for.", "anchors": ["src/exports/mod.rs: ac__arrow_client__free, ac__join_handle__join, ConnectionStateListener, NetworkScannerStateListener", "src/exports/logger.rs: CallbackLogger", "src/exports/storage/custom.rs: CustomStorage", "src/cmd_handler.rs: CommandHandler, scanner thread", "src/storage.rs: DefaultStorageBuilder::new", "src/context.rs: ApplicationContext"]}
{"id": "C107", "title": "A tunnel never stalls", "statement": "When nothing happens on a connection any more (every task waits and nothing in the program is about to wake it), nothing is left undone: no message for the server is queued; and for every open session everything its service sent has been sent to the server, or the server's window is used up; everything written to the service has been acknowledged to the server; and once the connection with the service exists, everything the server sent has been written to it, or the service did not take more when it was last asked, and the service had nothing to read when it was last asked, or the server's window is used up.", "quantifier": "all configurations, all sequences of messages of the server, timer events, polls and answers of the services, in any interleaving, that open sessions only with ids of 24 bits and services other than 0; all open sessions", "why_tests_cant": "A lost wake-up shows up only for particular interleavings of the tasks, and then as a connection that hangs.", "anchors": ["src/net/arrow/mod.rs: ArrowClient::poll_next, ArrowClientContext::poll_next", "src/net/arrow/session.rs: SessionManager, SessionContext, SessionTransport"]}
{"id": "C108", "title": "No busy loop", "statement": "The tasks of a connection are polled a number of times that is bounded by what comes from outside. The task sending messages to the server is polled at most twice, plus once for each message of the server that is handled and each wake-up from outside, three times for each timer event and twice for each time something is read from or written to a service or the connection with it fails or ends. The task of a session is polled at most once for each poll of the sending task, each wake-up by the service, and each such event of its own service. In particular, when nothing comes from outside any more, the connection comes to rest.", "quantifier": "all configurations and all sequences of messages of the server, timer events, polls and answers of the services, in any interleaving; all sessions", "why_tests_cant": "Two tasks that keep waking each other are found by a test only if it happens to produce the state in which they do; the bound has to hold for all histories.", "anchors": ["src/net/arrow/mod.rs: ArrowClient::poll_next, ArrowClientContext::poll_next, send_control_message", "src/net/arrow/session.rs: SessionManager::poll_next, SessionContext::take_arrow_message, poll_read_input, poll_write_output, SessionTransport::poll"]}
{"id": "C109", "title": "The list of network interfaces is exactly that of the system", "statement": "The list of interfaces a scan works on contains, on Linux and macOS, one entry for every address the system reports that belongs to an Ethernet interface and has an IPv4 address and mask, with that name, MAC address, address and mask (last first); on Windows one entry for every Ethernet or wireless adapter with an IPv4 address, in the order of the system, with its first IPv4 address and the mask of its prefix. Nothing else is in it. Afterwards every block of memory allocated for the list is freed, exactly once, and every descriptor and system list is closed. If allocations fail on Linux or macOS, entries are missing, and that is all. (For answers of the system where every such entry has a mask, and no prefix is longer than 31 bits.)", "quantifier": "every list of addresses or adapters the system may report, every hardware address table, every failure of the socket or of the queries, every pattern of failing allocations, every state of the heap before", "why_tests_cant": "The interfaces of a test machine are one list, and allocations do not fail there; leaks and double frees on the error paths show only in the combination of answers that takes them.", "anchors": ["src/net/raw/devices/mod.rs EthernetDevice::list", "src/net/raw/devices/devices-linux.c net_find_devices", "src/net/raw/devices/devices-macos.c net_find_devices", "src/net/raw/devices/devices-windows.c net_find_devices", "src/net/raw/devices/devices-common.c net_free_device_list"]}
{"id": "C110", "title": "Listing the network interfaces never causes undefined behaviour", "statement": "Whatever the system reports about its interfaces, and whichever allocations fail, listing them dereferences no NULL or dangling pointer, reads nothing outside of a block and does no undefined arithmetic.", "quantifier": "every list of addresses or adapters the system may report, every pattern of failing allocations", "why_tests_cant": "The offending answers (a point-to-point address without mask, a prefix of 32 bits, an exhausted heap) do not occur on the machine of the test.", "anchors": ["src/net/raw/devices/devices-utils.h get_ipv4_record", "src/net/raw/devices/devices-windows.c set_ipv4_netmask", "src/net/raw/devices/devices-windows.c get_device_info", "src/net/raw/devices/mod.rs EthernetDevice::new"]}
{"id": "C111", "title": "Captures are memory safe and leak nothing", "statement": "Making a packet capture, setting its options, opening it, reading and writing any number of packets and dropping it never touches memory that does not belong to it, never frees anything twice, and gives back all memory, capture handles and compiled filters, whatever the capture library answers and whichever allocations fail. The client is only aborted if memory runs out or if the filter is set to nothing.", "quantifier": "every platform, device name, sequence of options, sequence of reads and writes, every behaviour of the capture library within its documentation, every pattern of failing allocations, every heap", "why_tests_cant": "The C code has an error path for each failing call and each failing allocation; the combinations are unbounded and a use after free or a leak need not show in a test.", "anchors": ["src/net/raw/pcap/wrapper-common.c", "src/net/raw/pcap/wrapper-linux.c", "src/net/raw/pcap/wrapper-windows.c", "src/net/raw/pcap/mod.rs:Capture", "src/net/raw/pcap/mod.rs:CaptureBuilder", "src/utils.h:string_dup"]}
{"id": "C112", "title": "Captures report errors with their text and deliver frames unchanged", "statement": "Opening, reading and writing a packet capture fails exactly if a call of the capture library fails, and then with the text of that failure (cut to no less than 255 characters only if memory runs out); a read that succeeds delivers exactly the frame that was captured, or says that there was none.", "quantifier": "every device, options, sequence of reads and writes, every behaviour of the capture library within its documentation, every pattern of failing allocations", "why_tests_cant": "The text goes through a buffer of fixed size that is replaced when it is too small; texts, failures and their order are unbounded.", "anchors": ["src/net/raw/pcap/wrapper-common.c:pcap_wrapper__set_error", "src/net/raw/pcap/wrapper-linux.c:pcap_wrapper__read_packet", "src/net/raw/pcap/wrapper-windows.c:pcap_wrapper__read_packet", "src/net/raw/pcap/mod.rs:Capture::read_packet", "src/net/raw/pcap/mod.rs:Capture::write_packet"]}
{"id": "C113", "title": "A scan whose device fails while it listens ends with an error", "statement": "If a read of the listener of a network scan fails, the scan ends with an error at that read, unless it has ended before, and does not report a list of packets.", "quantifier": "every device, filter, sequence of reads before and after the failure, clock, behaviour of the capture library and the allocator", "why_tests_cant": "Needs a device that fails at an arbitrary point of a scan.", "anchors": ["src/net/raw/pcap/mod.rs:packet_listener", "src/net/raw/pcap/wrapper-linux.c:pcap_wrapper__read_packet", "src/net/raw/pcap/wrapper-windows.c:pcap_wrapper__read_packet"]}
{"id": "C114", "title": "A copy of the service table answers lookups", "statement": "The copy of a service table that is put into a message answers lookups like the table it was made from: id 0 is the control service, every other id is the service last listed under it or nothing; the control service has the id 0, and any other service has an id it is listed under if there is one, and none otherwise.", "quantifier": "every list of ids and services, also with repeated ids and services, every id and every service looked up", "why_tests_cant": "The lookups scan a list that is built by repeated replacement; lists, repetitions and lookups are unbounded.", "anchors": ["src/net/arrow/proto/msg/control/svc_table.rs:SimpleServiceTable"]}
{"id": "C115", "title": "A network scan contacts only hosts of the local networks", "statement": "A network scan sends frames only on the interfaces that may be scanned (all, or those of the whitelist). It asks (ARP, ICMP) only for addresses strictly inside the network of the interface, sends TCP SYNs only to candidate ports of hosts that have answered on this interface, connects only to candidate ports that have answered a SYN, and reports only hosts and ports that have answered. All these addresses are in the networks of the interfaces.", "quantifier": "every set of interfaces, whitelist, captured frames, clock, failures of sending and receiving, every behaviour of every server, every list of stream paths", "why_tests_cant": "The hosts that are contacted come from frames that anybody in the network can send; the frames and their combinations over three scans are unbounded.", "anchors": ["src/scanner/discovery.rs:find_open_ports", "src/scanner/discovery.rs:find_open_ports_in_network", "src/scanner/discovery.rs:find_open_ports_on_hosts", "src/scanner/discovery.rs:scan_network", "src/net/raw/arp.rs:Ipv4ArpScanner", "src/net/raw/icmp.rs:IcmpScanner", "src/net/raw/tcp.rs:TcpPortScanner"]}
{"id": "C116", "title": "A configuration is what the setters asked for", "statement": "However the setters of the configuration builder (or of the C interface) are called, and in whatever order, the configuration that is built has the last value of every setting or its documented default, the loaded identity, the loaded service table with the static services added, the MAC address that was set or else that of the first network interface, and the lists of paths that could be loaded (an unreadable list is empty and gives one warning). Building fails exactly if the configuration cannot be loaded, there is no MAC address, or it cannot be saved; it is saved once, as it is returned. Setters of the C interface take every non-zero number for true.", "quantifier": "for all sequences of setter calls, all answers of the storage and of the system, and all C integers", "why_tests_cant": "the number of sequences of setter calls is unbounded, and a default or an overwritten value shows only in the combination that a test happens to try", "anchors": ["src/config.rs: ConfigBuilder::new, setters, build, get_first_mac", "src/exports/config.rs: ac__config__set_*", "src/utils/mod.rs: result_or_log"]}
{"id": "C117", "title": "What the program does with its command line", "statement": "The program runs only with an address and options that are all accepted; then the configuration it runs with is what the options say, and it holds the lock it was asked to take, which it took before anything else. With arguments that are not accepted it ends with 1, with --help or --version with 0, in both cases without touching anything. If the lock is held by another process it ends with 1, having opened no log file and read or written no configuration; likewise no configuration is touched if the log file cannot be opened. Once it runs it never ends by itself, except in diagnostic mode, where it ends after one attempt with 0 for a redirect or a refusal to authorize and with 1 otherwise.", "quantifier": "for all command lines, all answers of the file system and all results of the attempts to connect", "why_tests_cant": "command lines are unbounded sequences of options, and the order of the effects on files matters for every combination of failures", "anchors": ["src/main.rs: main, result_or_usage", "src/config.rs: Config::from_args, ConfigParser::build, create_logger", "src/client.rs: ArrowMainTask"]}
{"id": "C118", "title": "A stored configuration means what it says", "statement": "For every JSON document, whoever wrote it: the service table loaded from it has exactly the control service and the services the document lists. A listed service has the type, MAC address, socket address and path the entry gives (the path of a locked service only if it is not empty), the flags and the time of the entry, or `not static`, `active` and the present time where the entry gives none or none that fits. It has the id the entry asks for (its position if it has no id, 0 if the id is no 16-bit number) or the next id that is not taken. Usable at once are the listed services that are active and not static. A document is accepted exactly if it is an object with a list of at most 65535 services all of which can be read; it makes the program panic exactly if the first 65536 services of a longer list can be read; else it is refused with an error. A configuration is accepted exactly if it has such a table, two texts of UUIDs and a 64-bit version. A client whose configuration file is accepted starts with the identity and the table of that file, whatever the skeleton file says.", "quantifier": "all JSON documents (any keys, values, order, number of entries, repeated and colliding ids), all clocks, all address and UUID parsers, all worlds before the start", "why_tests_cant": "The documents are unbounded trees; a test sees some files, mostly files written by the program itself, and not every combination of missing, ill-typed, out-of-range and colliding values.", "anchors": ["src/svc_table/mod.rs: ServiceTableElement::from_json, ServiceTableData::from_json, add_element", "src/config.rs: PersistentConfig::from_json", "src/storage.rs: load_configuration"]}
{"id": "C119", "title": "Only the server's refusal can stop the client", "statement": "A client that is not in diagnostic mode stops trying to connect only if a TLS connection was made and the very first bytes the server sent are the ACK of REGISTER with the code for an unsupported protocol version, or with the code for an unauthorized client after the pairing window of 20 minutes is over. No failure of the network (name lookup, connecting, TLS, timeouts, a broken or closed connection, garbage on the wire) and nothing the server sends later can do that: the next attempt follows at the latest a minute after the beginning of the last one, or at once if that lasted longer, but for delays of the scheduler. While no connection can be made the attempts are exactly a minute apart and go to the configured address. The same bytes are the only way to the result `unauthorized`, and they lead to it whenever a message was handled.", "quantifier": "all configurations, all sequences of calls of connect with all behaviours of the network, all byte streams of the server in all portions, all schedules of the client's tasks, all delays, all start times", "why_tests_cant": "which events lead to which kind of error depends on the whole history of a connection; a test can only try some failures", "anchors": ["src/client.rs: ArrowMainTask::start, connect, process_result, process_connection_error", "src/net/arrow/mod.rs: connect, process_handshake_ack", "src/net/arrow/error.rs: From impls", "src/net/arrow/proto/codec.rs: ArrowCodec"]}
{"id": "C120", "title": "The server cannot choose where the client connects to", "statement": "Whatever the server sends, on any connection of any run of the client, every connection the client opens for it goes to the address of a service that somebody else gave the client: a service configured when the client was started, a service described in the configuration or skeleton file it was installed with, or a service found by a scan of the network; that service has the type and the device the session is for. And everything the client announces to the server has the identity of such a service.", "quantifier": "all histories of starts, scans, resets, stops and crashes with any outcome of saving, all configurations, all connections with all messages and interleavings, all moments at which the service tables are read", "why_tests_cant": "it is a statement about every address the client can ever be made to connect to, across restarts and storage failures, for a hostile server", "anchors": ["src/net/arrow/session.rs: SessionManager::connect", "src/svc_table/mod.rs: ServiceTableData", "src/config.rs: PersistentConfig, Config::update_service_table", "src/net/arrow/mod.rs: ArrowClient"]}
{"id": "C121", "title": "A service found by a scan can be used from the server", "statement": "A service on the network becomes usable in three steps, each of which holds for every history. (1) When the client is given the services found by a scan and survives it, every one of them that was seen at most 1200 s ago (the last one of each identity) is visible, exactly as it was found. (2) Whenever the client checks its services (at least 5 s after the last check), the services the server was told about last are exactly the visible ones, provided the table did not change between the two reads made for one message. (3) If the server was told an id of a service and asks for a session with that id under a session id not in use, while the service is visible, the client connects to the address the service has then, provided gateway mode or a loopback address allow it.", "quantifier": "all histories of starts, scans, resets, stops and crashes before and during the connection (less than 2^32 services given during the connection), all service lists and times, all messages, ticks, polls and interleavings on the connection", "why_tests_cant": "the three steps are run by different threads over a shared table at arbitrary times; a test follows one service in one order of events", "anchors": ["src/svc_table/mod.rs: SharedServiceTable, update, update_active_services", "src/config.rs: ApplicationConfig::update_service_table", "src/net/arrow/mod.rs: check_for_updates, send_update_message, process_connect_message"]}
{"id": "C122", "title": "The client identifies itself only to servers its service vouches for", "statement": "Whatever the network does, everything the client sends to the service, beginning with the message that carries its identity and key, goes to a server that speaks TLS 1.2 or 1.3 and shows a certificate for the host in the address of that attempt, signed by an authority the client was told to trust. The address of every attempt is the configured one, or the target of a REDIRECT sent in the attempt before by such a genuine server for an address that was itself configured or vouched for in this way, after it had accepted the client. So somebody who controls the network but has no such certificate for the configured host never receives a message and cannot move the client to another address.", "quantifier": "all sequences of connection attempts, all answers of name servers, addresses, handshakes and servers, all portions in which bytes arrive, all sources of certificates, all schedules of the connections", "why_tests_cant": "it is a statement about every chain of redirects and every attacker; a test plays one attacker", "anchors": ["src/net/tls.rs: TlsConnector::connect", "src/net/arrow/mod.rs: connect, process_redirect_message", "src/client.rs: ArrowMainTask::connect, process_result", "src/config.rs: get_tls_connector"]}
{"id": "C123", "title": "Scans decide which hosts of the local network the server can reach", "statement": "Apart from configured services, every connection the client opens for the server goes to an address and device at which a candidate port has answered in one of its network scans, on an interface that may be scanned; if nobody in these networks claims a foreign address, the address is in the network of such an interface. Conversely, after a scan has ended and the client was told about it, the server on the most preferred port of every IP address, and the stream found on it, are visible to the server (as the service of that type, device, port and path). Without the assumption, one host in the local network can make the client connect to an address of another network.", "quantifier": "every history of the client with any number of runs, every result of every scan, every behaviour of the hosts in the networks, every whitelist, everything the server sends on any connection", "why_tests_cant": "ranges over all captured frames, answers of hosts, histories of the service table and messages of the server; a test sees one network", "anchors": ["src/cmd_handler.rs:network_scanner_thread", "src/scanner/discovery.rs:scan_network", "src/context.rs:update_service_table", "src/svc_table/mod.rs:SharedServiceTable", "src/net/arrow/session.rs:SessionManager::connect"]}
{"id": "C124", "title": "No frame and no message makes the client read outside of the bytes it was given", "statement": "The parsers of Ethernet frames (with ARP, IPv4, ICMP, TCP and their options), of the header of Arrow messages and of control messages read through raw pointers. For every sequence of bytes, of any length, they read only addresses that hold these bytes, and what they do is a matter of the bytes alone, not of where they are or what lies around them in memory. So does the checksum of any data. An IPv4 or TCP header that claims to be shorter than its minimum passes the check of the length (the number of option words wraps around); what keeps the client from reading past the frame is a panic of the allocation.", "quantifier": "every content and length of a frame, a message or checksummed data, every address, everything that lies around it in memory, 32 and 64 bit machines", "why_tests_cant": "a test on some inputs reads whatever happens to be in memory around them and does not notice; all lengths and all values of the length fields matter", "anchors": ["src/net/raw/ether/packet.rs:EtherPacket::parse", "src/net/raw/arp.rs:ArpPacket::parse", "src/net/raw/ip.rs:Ipv4PacketHeader::parse", "src/net/raw/icmp.rs:IcmpPacket::parse", "src/net/raw/tcp.rs:TcpPacket::parse", "src/net/raw/utils.rs:sum_raw_be", "src/utils/mod.rs:vec_from_raw_parts_unaligned", "src/net/arrow/proto/msg/mod.rs:ArrowMessageHeader::from_bytes", "src/net/arrow/proto/msg/control/mod.rs:ControlMessage::from_bytes"]}
{"id": "C125", "title": "Back-pressure: the peer cannot make a connection hold ever more", "statement": "Messages the client makes for the server are handed to the transport one per poll. However many messages the server sends, the number of messages that wait never exceeds one plus the number of PINGs and UPDATEs the client has made by its own clock: a poll never leaves more messages waiting than it found, and one that finds no message of the server leaves one less. While messages wait, a poll handles at most one message of the server; the rest stays in the transport. For every open session at most 65536 bytes are held for the service and at most 8191 bytes and one read for the server.", "quantifier": "all configurations, all histories of a live connection: any messages of the server, any clock, any behaviour of the services, any number of sessions", "why_tests_cant": "the bound must hold for every sequence of messages and every interleaving with the clock and the services; a test sees a finite flood of one kind", "anchors": ["src/net/arrow/mod.rs: ArrowClient::poll_next, ArrowClientContext::poll_next, process_arrow_message, time_event", "src/net/arrow/session.rs: SessionManager::poll_next, SessionContext::push_output_message, SessionContext::poll_read_input"]}
{"id": "C126", "title": "The identity and key of a client show only in its REGISTER message", "statement": "Let two clients run with the same mode settings but different UUID, key, MAC address and extended information, and see the same server messages, local services, clock, network and service table. Then both queue, send and write exactly the same and their connections end in the same way, except for one message: the REGISTER message, which each client makes at the start and sends at most once. Two clients that differ only in the key send REGISTER messages that differ at most in the 16 bytes that hold the key. So nothing else a client sends to the server or to a local service depends on its secret.", "quantifier": "all pairs of configurations that agree on gateway and diagnostic mode, all environments and all histories of the connection", "why_tests_cant": "it compares two runs for every pair of identities and every history (noninterference); a test compares finitely many pairs", "anchors": ["src/net/arrow/mod.rs: ArrowClientContext::new, send_register_message, send_update_message, send_ping_message, process_get_status_message, process_handshake_ack, poll_next, time_event", "src/net/arrow/proto/msg/control/register.rs: RegisterMessage"]}
{"id": "C127", "title": "A network scan in time", "statement": "A network scan asks hosts over RTSP and HTTP whether they are servers and which of a list of paths has a stream. No host can hold up a request for more than two seconds: a request is over when its exchange is over or after 2000 ms, and an answer that comes later counts as no answer. After the search for open ports, all requests are over within four seconds and two seconds for every path on the lists, whatever the hosts do and however many there are. A host is asked for one stream at a time: of two requests for streams of one IP address, one is over before the other begins. A scan sends no request without need: it asks exactly the open ports that are candidates for RTSP or HTTP, and the servers it chose, one path after the other up to the first that has a stream or is locked; no request is sent twice. The report depends on nothing but what the hosts do with these requests. The bound is reached: one RTSP server that answers OPTIONS but no DESCRIBE makes a scan last two seconds for every RTSP path; with the 211 paths delivered with the program that is more than the five minutes between two scans.", "quantifier": "all networks, all answers of hosts and all their delays, all lists of paths, all orders of hash maps", "why_tests_cant": "the bound and the separation have to hold for every combination of delays of any number of hosts; a test has few hosts with fixed delays and would have to wait for the timeouts", "anchors": ["src/scanner/discovery.rs: scan_network, find_rtsp_services, find_rtsp_stream, find_http_services, find_mjpeg_path, filter_services, filter_duplicit_services, ContextData::new", "src/net/http/mod.rs: Request::send", "src/net/rtsp/mod.rs: Request::send", "rtsp-paths"]}
{"id": "C128", "title": "Network scans over time", "statement": "As long as the client runs and the tasks are scheduled, network scans do not cease: the time never passes the moment when a scan is due (at once, then five minutes after the end of the last one) by more than the time of a trigger, of a reaction of the command handler, of the scan and of another reaction. While no scan runs, the next one starts within a trigger and a reaction of that moment. At most one scan runs at a time, and without a request of the server or the user none starts less than five minutes after the end of an earlier one, however often the trigger comes. For the service table this means: a device that is gone (in no report since a time V, never configured as static) is no longer visible 1201 seconds plus the time between two reports after V, and a device that was found stays visible until the first report that comes more than 1200 seconds later, even if scans in between miss it.", "quantifier": "all histories of triggers, commands, polls, steps of the scanner thread and passing of time; all bounds for triggers, reactions and scans; all results of scans; all wall clocks that are not slower than time", "why_tests_cant": "the bounds combine timers, a message queue and a thread; a test sees one schedule and would have to run for half an hour per case", "anchors": ["src/client.rs: periodic network scan task", "src/cmd_handler.rs: CommandHandlerContext::periodic_network_scan, scan_network, scan_completed, network_scanner_thread, NETWORK_SCAN_PERIOD", "src/context.rs: update_service_table", "src/svc_table/mod.rs: add, update_active_services, ACTIVE_THRESHOLD"]}
{"id": "C129", "title": "A silent server is noticed, and a living one is up to date", "statement": "A connection on which the server acknowledges nothing any more ends within 80 seconds plus the distance of two timer events, whatever else the server sends and whatever the sessions do; before the handshake it ends within 20 seconds plus that distance. So a dead or misbehaving server cannot hold the client for ever. On an established connection, after every timer event the last PING is less than a minute old, and the server has been told exactly the services that were visible at some moment less than five seconds ago (if the table does not change between the two reads made for one message, see C76).", "quantifier": "all histories of a connection, all messages of the server, all I/O of sessions, all distances of timer events", "why_tests_cant": "the end has to come for every way of being silent: a server that sends data, control messages or nothing; tests would have to wait minutes for each", "anchors": ["src/net/arrow/mod.rs: ArrowClientContext::time_event, ack_timeout, send_ping_message, process_ack_message, check_for_updates, ArrowClient::new (watchdog)"]}
{"id": "C130", "title": "From a device on the network to the server", "statement": "If from some time V on every scan finds a service, then the service is visible and, on an established connection, the server has been told of it with an id at the latest after: the rest of a running scan, five minutes, a trigger, two reactions of the command handler, one scan and the five seconds between two checks of the table, whatever else happens. If from V on no scan finds a service (and it was never configured as static), the server knows of no service with this identity at the latest 1201 seconds later plus the time between two reports and five seconds. Every scan that starts is reported within the time a scan takes, and from every moment on the next scan starts within the bound.", "quantifier": "all histories of triggers, commands, scanner steps and passing of time, together with all histories of a connection that reads the same table; all bounds for triggers, reactions and scans; all results of the other scans", "why_tests_cant": "it composes a periodic task, a thread, a table with an expiry time and the polling of a connection; one test run takes half an hour and sees one schedule", "anchors": ["src/client.rs: periodic network scan task", "src/cmd_handler.rs: CommandHandlerContext::periodic_network_scan, scan_completed, network_scanner_thread", "src/context.rs: update_service_table", "src/svc_table/mod.rs: add, update_active_services, visible_services, visible_services_version", "src/net/arrow/mod.rs: ArrowClientContext::check_for_updates, send_update_message"]}
{"id": "C131", "title": "An outage of the server ends soon after the server is back", "statement": "After the last acknowledgement of a server, whatever else it sends, the client gives the connection up and makes its next attempt within 80 seconds (plus three distances of timer events and the delays of the task), or a minute after the last attempt began if this is later. As long as the server is out - the name cannot be resolved, no address answers, or a connection is made but nothing is ever acknowledged on it - the attempts begin exactly a minute apart (but for the delays of the task) and go to the configured address. So whenever the server comes back, an attempt begins within a minute and a delay.", "quantifier": "all histories of attempts, all ways in which connecting fails, all connections with any traffic but acknowledgements, all distances of timer events (for the exact minute: below 4.75 seconds), all times of return", "why_tests_cant": "it composes connecting, the protocol of a connection, its timer and the retry policy; every kind of outage would need minutes per test and only one schedule would be seen", "anchors": ["src/client.rs: ArrowMainTask::start, connect, process_result, process_connection_error, wait_for_retry", "src/net/arrow/mod.rs: connect, ArrowClientContext::time_event, ack_timeout", "src/net/tls.rs: TlsConnector::connect"]}
{"id": "C132", "title": "No deadlock", "statement": "However the threads of a process interleave (connections, sessions, scans, the application's own threads, event listeners that call the client), they never reach a state in which some operation has not ended and no thread can go on; a mutex has one holder at most; and under every scheduler that lets each thread try again and again every operation ends and leaves no mutex held. The listeners may call every function of the client. This holds as long as the callbacks of an application's storage ask the client for nothing and those of an application's logger do not use the client or the logger; both conditions are needed: a storage callback that asks the client for something waits for itself forever, and a logger callback that does so can block the client and itself.", "quantifier": "All numbers of threads, all lists of operations of each with any number of nested uses, all interleavings, all fair schedulers", "why_tests_cant": "A deadlock needs a particular interleaving of particular operations; tests run a few of both.", "anchors": ["src/context.rs:ApplicationContext", "src/net/arrow/mod.rs:ArrowClient", "src/net/arrow/session.rs:Session", "src/svc_table/mod.rs:SharedServiceTable", "src/exports/logger.rs:CallbackLogger", "src/exports/storage/custom.rs:CustomStorage", "src/config.rs:Config::save"]}
{"id": "C133", "title": "The table of services can be shared between threads", "statement": "Any number of threads call the functions of a shared table of services, each deciding by the replies it got what to call next, and the steps of these functions interleave in any way the mutex allows. Then the calls, taken in the order in which they returned, give the same replies when one thread makes them one after another, and at a quiet moment the table is the one after these calls; so everything proved about histories of a table holds for shared ones. Calls that returned before others began come first. Two additions, by whatever threads, return the same id exactly if the services have the same identity. The report of a scan is several calls and not one: a connection that reads the table meanwhile can see a part of the services found.", "quantifier": "All numbers of threads, all programs of the threads, all divisions of the functions into steps, all interleavings", "why_tests_cant": "Races show only in particular interleavings, of which a test runs a few.", "anchors": ["src/svc_table/mod.rs:SharedServiceTable", "src/svc_table/mod.rs:SharedServiceTableRef", "src/config.rs:Config::update_service_table"]}
{"id": "C134", "title": "Connections to services end with the connection to the server", "statement": "When the client is done with a server (the connection was lost, closed, redirected, failed, or the client was closed), every connection to a service opened for it ends: after the close no further connection to a service is requested; one second after the attempt is over no session is open, nothing is exchanged with a service and no connection is in use; within 20 seconds (21 seconds after the close, even if the server never completes the shutdown) none is left, not even one that was still being established. A session hung up by the server exchanges nothing from that moment on and its connection is closed at once, or, if it was still being established, within 20 seconds of the request. All up to the latency of the runtime.", "quantifier": "every history of the session manager, every behaviour of the services, every order of the tasks, every latency of the runtime, every moment and way in which the connection ends", "why_tests_cant": "depends on which task drops the shared state last, on timers and on wake-ups of detached tasks, for unbounded histories", "anchors": ["src/net/arrow/mod.rs: ArrowClient::new, Drop for ArrowClient, connect", "src/net/arrow/session.rs: Drop for SessionManager, SessionManager::close, Session::new, SessionTransport::poll"]}
{"id": "C135", "title": "The connections to services are accounted for by the requests of the server", "statement": "Whatever the server asks for, and however the tasks and the clock are scheduled, every connection to a service (open, being established, winding down or over) corresponds to exactly one connection request of the server that was accepted. The connections that are being established are never more than the requests accepted in the last 20 seconds (plus the latency of the runtime), and the connections in use are never more than the open sessions plus those that left the session manager within the latency. There is no other limit: a server that alternates CONNECT and HUP makes the client establish any number of connections at the same time although no session is open.", "quantifier": "All histories of a connection to an Arrow server: all requests, service tables, replies of services, passages of time, closings, and all numbers of connections", "why_tests_cant": "The bounds hold over every interleaving of requests, hang-ups, tasks and time, and the absence of a limit is a claim about every number.", "anchors": ["src/net/arrow/session.rs: SessionManager::connect, close, poll", "src/net/arrow/session.rs: Session, CONNECTION_TIMEOUT", "src/net/arrow/mod.rs: ArrowClient, connect"]}
{"id": "C136", "title": "The client does not flood servers with connection attempts", "statement": "In any n times ten seconds the client starts at most n connection attempts, plus one for each redirect it received in that time; if no server refuses it as not authorized, at most n attempts in any n times 59.5 seconds plus the redirects. Over its whole life it is refused as not authorized at most 81 times, however many other errors, redirects and connections there are between the refusals. In diagnostic mode it makes one attempt.", "quantifier": "All sequences of connection results, all durations, all delays of the scheduler, all windows of time", "why_tests_cant": "The bound is about every window of every history of attempts.", "anchors": ["src/client.rs: ArrowMainTask::start, connect, process_result", "src/client.rs: process_connection_error, wait_for_retry"]}
{"id": "C137", "title": "The identity file names the client, and only that", "statement": "If the client is given an identity file and can write it whenever it is started, then at any time the client runs the file is a JSON object whose only member is the UUID of the running client, over any history of restarts, resets, updates, failing saves and crashes. Whatever happens, what the client puts into the file depends on UUIDs only (not on its password and not on its services); a file that was cut short is not JSON, so a reader cannot mistake it. A client without an identity file writes none. That the file cannot be written is only logged: then it can go on naming an identity the client no longer has.", "quantifier": "All histories of starts, updates, resets, stops, with all outcomes of every write (complete, failing or cut at any byte, crash before or in the middle), all contents of the other files", "why_tests_cant": "Every crash point of every write in every history is covered.", "anchors": ["src/storage.rs: DefaultStorage::load_configuration, save_identity_file", "src/config.rs: PublicIdentity, PersistentConfig::to_identity"]}
{"id": "C138", "title": "The client says only what a client may say, and a server can read it", "statement": "Every message the client sends on a connection is either a control message of a kind that is the client's to send (ACK, PING, REGISTER, UPDATE, HUP, STATUS, SCAN_REPORT, DATA_ACK, of the right length, on service 0 and session 0) or non-empty data of a session that was opened before, carrying the service id and the 24-bit number of that session. The client never sends CONNECT, REDIRECT, GET_STATUS, RESET_SVC_TABLE, SCAN_NETWORK or GET_SCAN_REPORT. The concatenated bytes, cut into pieces in any way, are decoded to exactly those messages in order with nothing left over, if payloads fit the 32-bit length field.", "quantifier": "all configurations, all contents of the service table and scan results at every time, all sequences of server messages, session I/O, timer ticks and failures, and all ways to cut the byte stream", "why_tests_cant": "the messages come from four sources (client protocol, refused requests, sessions ending, session data) in any interleaving, and the pieces in which bytes arrive are chosen by the network", "anchors": ["src/net/arrow/mod.rs: ArrowClientContext::send_control_message, poll_next", "src/net/arrow/session.rs: SessionManager::poll_next, create_hup_message, SessionContext::take_arrow_message", "src/net/arrow/proto/codec.rs: ArrowCodec", "src/net/arrow/proto/msg/mod.rs: ArrowMessage"]}
{"id": "C139", "title": "STATUS tells the number of open sessions", "statement": "Whenever the client creates a STATUS message, the last thing that happened on the connection was an accepted GET_STATUS, the message names the id of that request, and the number of sessions it tells is (modulo 2^32, the size of its field) the number of sessions that were opened on this connection and are not over, that is neither hung up by the server nor ended with a HUP to the server. No STATUS is sent otherwise.", "quantifier": "all configurations and all sequences of server messages, session I/O, timer ticks and failures, at every point of the connection", "why_tests_cant": "the number depends on the whole history of requests, refusals, hang-ups and endings in any order, including ids that are used again", "anchors": ["src/net/arrow/mod.rs: process_get_status_message, send_control_message", "src/net/arrow/session.rs: SessionManager::len, connect, close, poll_next"]}
{"id": "C140", "title": "Nothing happens unsolicited", "statement": "On every connection, each effect that a server has to ask for comes immediately after the accepted message that asks for it and names what that message names: an ACK after a PING with its id, a STATUS after a GET_STATUS and a SCAN_REPORT after a GET_SCAN_REPORT with the id of the request, a reset of the service table after RESET_SVC_TABLE, a network scan after SCAN_NETWORK, a connection to a service after a CONNECT with that service id and session number, a refusal after a CONNECT or data with that session number, and a hang-up after a HUP with that session number. REGISTER is created only at the beginning. The client protocol creates no messages other than these, UPDATE and PING.", "quantifier": "all configurations and all sequences of server messages, session I/O, timer ticks and failures, at every point of the connection", "why_tests_cant": "the absence of an unsolicited effect is a claim about every history", "anchors": ["src/net/arrow/mod.rs: process_control_protocol_message, process_service_request_message, process_*", "src/net/arrow/session.rs: SessionManager::connect, send, close, poll_next"]}
