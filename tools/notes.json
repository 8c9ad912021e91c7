{
 "C01": {
  "note": "64-bit usize; payload < 2^32."
 },
 "C02": {
  "note": "After an error the leftover buffer is not claimed (the connection is dropped)."
 },
 "C03": {
  "note": "64-bit usize. On 32-bit targets the size computation overflows: C03_decode_panics_on_32_bit exhibits the panic."
 },
 "C07": {
  "note": "The NUL-path failure is exhibited by C07_nul_path_breaks_table."
 },
 "C09": {
  "note": "The 65536-port failure is C09_65536_ports_lost."
 },
 "C10": {
  "note": "The counter is a Nat; usize overflow after 2^64 messages is not modelled."
 },
 "C11": {
  "note": "W < 2^32 (the client uses 65536)."
 },
 "C16": {
  "note": "The loss without window is exhibited by C16_lost_without_window."
 },
 "C17": {
  "note": "False of this code: C17_false_data_lost_on_hup is a witness (close drops the output buffer). Proved part: data is written in order while the session is open.",
  "status": "partial"
 },
 "C19": {
  "note": "Waiting tasks are ghost flags of the model, updated from the wakes each operation performs."
 },
 "C26": {
  "note": "Bound in terms of the position in the rotation, which may hold stale entries (C75)."
 },
 "C28": {
  "note": "False of this code for ids of 2^24 and above: C28_false_unreachable_session. Proved for ids below 2^24.",
  "status": "partial"
 },
 "C33": {
  "note": "Which version counts as announced is C33_announced_version (no change between the two reads of the version; see C76)."
 },
 "C34": {
  "note": "Unless the transport fails while the last messages are flushed; then the result is that error."
 },
 "C74": {
  "note": "Waiting tasks are ghost flags of the model."
 },
 "C75": {
  "note": "False of this code: C75_rotation_grows proves unbounded growth. Proved part: at most one entry per session ever opened, given back when its service ends it.",
  "status": "partial"
 },
 "C76": {
  "note": "False of this code: C76_false_update_lost (a change between reading the services and reading the version is never announced). Proved when no change falls between the two reads.",
  "status": "partial"
 },
 "C78": {
  "note": "64-bit usize; the message handlers' expect calls are explicit panic outcomes of the model."
 },
 "C39": {
  "note": "The hash function is arbitrary. C39_too_many shows the bound is sharp."
 },
 "C41": {
  "note": "Expiry counts as 65536 changes, an addition as one, towards the 2^32 that may be missed."
 },
 "C42": {
  "note": "last_seen + 1200 must fit i64 (it wraps otherwise). The example after the theorems shows an expired service found again staying invisible until the next expiry."
 },
 "C43": {
  "note": "JSON values, not their text (crate json). Formatting and parsing of addresses is assumed faithful (std); MAC addresses are modelled and proved. C43_false_empty_path shows why empty locked paths are excluded."
 },
 "C44": {
  "status": "partial",
  "note": "False of this code: C44_false_duplicate, C44_false_control. Proved for files without duplicates and control entries; C44_load_panics: 65536 valid entries panic at start."
 },
 "C45": {
  "note": "Exact policy; the scheduler's delays are the only other influence. C45_not_too_early are the lower bounds for any delays."
 },
 "C50": {
  "note": "A panic of the scanner thread only leaves the process running when built with unwinding panics; the release profile aborts."
 },
 "C83": {
  "note": "The comment in ArrowClient::close says dropping the channel ends the handler; it does not, so the handler task and its context are leaked."
 },
 "C51": {
  "note": "C51_failed_save_not_retried is a finding."
 },
 "C52": {
  "note": "C52_old_table_frozen is a finding."
 },
 "C53": {
  "note": "C53_lost_without_skeleton and C53_lost_if_unreadable are findings."
 },
 "C61": {
  "note": "C61_truncated is a finding: truncated bodies are accepted silently."
 },
 "C62": {
  "note": "C62_truncated and C62_garbage are findings."
 },
 "C87": {
  "note": "Finding: a DESCRIBE response with Content-Length 2^63 aborts the client (release builds abort on panic)."
 },
 "C88": {
  "note": "Assumes that to_lowercase agrees with ASCII lower case on ASCII text. Findings: Host without the port, credentials and fragment of the URL are sent in RTSP requests, and set_header_field of the HTTP client adds (C88_set_adds)."
 },
 "C58": {
  "note": "The English property of the first draft (a supported path wins over a locked one) is false of the code: C58_locked_hides_supported. The exact rule is proved."
 },
 "C86": {
  "note": "A single host in the network can abort the client: C86_camera_aborts_client. Timeouts are the choice of the answers; the raw scanners are parameters."
 },
 "C71": {
  "note": "Proved as an equivalence for every text. Longer octets such as 0002, a sign and capital letters are accepted."
 },
 "C72": {
  "note": "Proved. Findings: --log-file-rotations=0 makes a rotation run 2^64-1 rounds that look for files (C72_no_backups; a panic in debug builds); a write error aborts the client (C72_abort); a message longer than the limit makes an empty backup (C72_empty_backup)."
 },
 "C73": {
  "note": "Proved for the file logger."
 },
 "C98": {
  "note": "A finding: with a callback logger a NUL in a message aborts the application, while the syslog logger escapes it."
 },
 "C99": {
  "note": "OpenSSL is a parameter: a program that uses the callbacks. The TCP stream must not return \"would block\" as an error (tokio does not)."
 },
 "C100": {
  "note": "OpenSSL's handshake is a specification (Accepts), not modelled."
 },
 "C101": {
  "note": "False for PEM and DER certificates: they are added to the list of client CAs, not to the trusted ones (C101_pem_der_ignored, C101_told_false). Proved for files, and for the return value.",
  "status": "partial"
 },
 "C103": {
  "note": "Session ids of CONNECT have 32 bits on the wire but only 24 in the message header; ids above 2^24 and service 0 are excluded by the hypothesis Usable (see C28)."
 },
 "C104": {
  "note": "C104_false_after_reset: without the conditions for several connections the claim is false (ids are given again after a reset)."
 },
 "C106": {
  "note": "C106_false_with_discovery: false with discovery. Proved if no scanner thread is at work at that moment (C106_no_callback_afterwards_partial, C106_lock_is_free_afterwards_partial), and without discovery for applications that join their threads (C106_joined_without_discovery).",
  "status": "partial"
 },
 "C108": {
  "note": "Tasks of sessions that were already removed are not counted: such a task finds its session closed and ends at its next poll (C11_closed_writes_nothing)."
 },
 "C110": {
  "note": "False: C110_linux_maskless, C110_macos_maskless (NULL dereference for an Ethernet entry with an IPv4 address and no mask), C110_windows_host_prefix (shift by 32), C110_windows_no_memory (NULL name). The _partial theorems say that, with allocations that succeed, these answers are the only ones; C109 has the rest (no fault on Linux and macOS whichever allocations fail, C109_windows_memory for the C part on Windows).",
  "status": "partial"
 },
 "C111": {
  "note": "C111_filter_none: CaptureBuilder::filter(None) always aborts the client; it is only called with a filter."
 },
 "C112": {
  "note": "False of the code on Linux and macOS: pcap_wrapper__read_packet returns the positive numbers EIO and errno when pcap_setnonblock or poll fails, and read_packet takes them for a captured frame (C112_unix_not; C112_unix says exactly what is answered). Proved in full for Windows (C112_windows) and for all other reads and writes on Linux and macOS (C112_unix_partial).",
  "status": "partial"
 },
 "C113": {
  "note": "False of the code on Linux and macOS for failures of pcap_setnonblock and poll (see C112): such a scan spins without waiting until the total timeout of 20 s and then reports an empty list without an error (C113_unix_silent, C113_unix_not). Proved for Windows and for failures reported by pcap_dispatch.",
  "status": "partial"
 },
 "C115": {
  "note": "The last sentence is false: an ARP reply may claim any address (C115_foreign_address); proved if ARP packets and TCP segments claim addresses of the network only. The other sentences are proved in full.",
  "status": "partial"
 },
 "C120": {
  "note": "The address book is the service table: configured services, files and scans; the wire only carries ids."
 },
 "C122": {
  "note": "With whom OpenSSL completes a handshake is a specification (Shakes in Model/Secure.lean): a version that is not switched off, a trusted authority, and the verified name."
 },
 "C123": {
  "note": "Composes C86, C115, C120 and C121. The address may be foreign if a host lies (C123_foreign_address)."
 },
 "C128": {
  "note": "The bounds on trigger, reaction and scan times are parameters (Timing); time cannot pass a deadline. Requests for a scan (`scanNetwork`) are allowed in all theorems but C128_not_before."
 },
 "C134": {
  "note": "Finding: neither a HUP nor the end of the connection stops a connection to a service that is being established; it goes on for up to 20 seconds (C134_connecting_goes_on)."
 },
 "C135": {
  "note": "C135_no_limit is a finding: the number of simultaneous connections to services is not limited."
 },
 "C137": {
  "note": "C137_may_be_stale is a finding."
 }
}