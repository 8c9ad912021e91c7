{
 "claims": [
  {
   "property": "C01",
   "status": "proved",
   "theorems": [
    "Verif.Props.Wire.C01_layout",
    "Verif.Props.Wire.C01_message_round_trip"
   ],
   "note": "64-bit usize; payload < 2^32."
  },
  {
   "property": "C02",
   "status": "proved",
   "theorems": [
    "Verif.Props.Wire.C02_chunking_irrelevant",
    "Verif.Props.Wire.C02_stream_of_messages"
   ],
   "note": "After an error the leftover buffer is not claimed (the connection is dropped)."
  },
  {
   "property": "C03",
   "status": "proved",
   "theorems": [
    "Verif.Props.Wire.C03_decode_exact",
    "Verif.Props.Wire.C03_decode_never_panics",
    "Verif.Props.Wire.C03_decode_panics_on_32_bit"
   ],
   "note": "64-bit usize. On 32-bit targets the size computation overflows: C03_decode_panics_on_32_bit exhibits the panic."
  },
  {
   "property": "C04",
   "status": "proved",
   "theorems": [
    "Verif.Props.Control.C04_accepted_fields",
    "Verif.Props.Control.C04_wellformed_accepted",
    "Verif.Props.Control.C04_accepts_iff",
    "Verif.Props.Control.C04_otherwise_error"
   ],
   "note": ""
  },
  {
   "property": "C05",
   "status": "proved",
   "theorems": [
    "Verif.Props.Control.C05_round_trip_built",
    "Verif.Props.Control.C05_round_trip_server",
    "Verif.Props.Control.C05_layout"
   ],
   "note": ""
  },
  {
   "property": "C06",
   "status": "proved",
   "theorems": [
    "Verif.Props.Control.C06_declared_length",
    "Verif.Props.Control.C06_arrow_size"
   ],
   "note": ""
  },
  {
   "property": "C07",
   "status": "proved",
   "theorems": [
    "Verif.Props.Control.C07_table_readable",
    "Verif.Props.Control.C07_update_readable",
    "Verif.Props.Control.C07_nul_path_breaks_table"
   ],
   "note": "The NUL-path failure is exhibited by C07_nul_path_breaks_table."
  },
  {
   "property": "C08",
   "status": "proved",
   "theorems": [
    "Verif.Props.Control.C08_register_content",
    "Verif.Props.Control.C08_other_windows_rejected"
   ],
   "note": ""
  },
  {
   "property": "C09",
   "status": "proved",
   "theorems": [
    "Verif.Props.Control.C09_scan_report_content",
    "Verif.Props.Control.C09_every_service_reported",
    "Verif.Props.Control.C09_65536_ports_lost"
   ],
   "note": "The 65536-port failure is C09_65536_ports_lost."
  },
  {
   "property": "C10",
   "status": "proved",
   "theorems": [
    "Verif.Props.Control.C10_message_ids",
    "Verif.Props.Control.C10_distinct_within_65536"
   ],
   "note": "The counter is a Nat; usize overflow after 2^64 messages is not modelled."
  },
  {
   "property": "C11",
   "status": "proved",
   "theorems": [
    "Verif.Props.Session.C11_unacknowledged_le_window",
    "Verif.Props.Session.C11_push_outcome",
    "Verif.Props.Session.C11_closed_writes_nothing"
   ],
   "note": "W < 2^32 (the client uses 65536)."
  },
  {
   "property": "C12",
   "status": "proved",
   "theorems": [
    "Verif.Props.Session.C12_sent_le_window"
   ],
   "note": ""
  },
  {
   "property": "C13",
   "status": "proved",
   "theorems": [
    "Verif.Props.Session.C13_reads_eq_sent_append_buffer",
    "Verif.Props.Session.C13_data_headers"
   ],
   "note": ""
  },
  {
   "property": "C14",
   "status": "proved",
   "theorems": [
    "Verif.Props.Session.C14_accepted_eq_wrote_append_buffer",
    "Verif.Props.Session.C14_discarded_when_closed"
   ],
   "note": ""
  },
  {
   "property": "C15",
   "status": "proved",
   "theorems": [
    "Verif.Props.Session.C15_ack_accounting",
    "Verif.Props.Session.C15_nothing_left_unacknowledged",
    "Verif.Props.Session.C15_ack_content"
   ],
   "note": ""
  },
  {
   "property": "C16",
   "status": "proved",
   "theorems": [
    "Verif.Props.Session.C16_delivered_before_end",
    "Verif.Props.Session.C16_closed_session_drains",
    "Verif.Props.Session.C16_lost_without_window"
   ],
   "note": "The loss without window is exhibited by C16_lost_without_window."
  },
  {
   "property": "C17",
   "status": "partial",
   "theorems": [
    "Verif.Props.Session.C17_false_data_lost_on_hup",
    "Verif.Props.Session.C17_written_while_open_partial"
   ],
   "note": "False of this code: C17_false_data_lost_on_hup is a witness (close drops the output buffer). Proved part: data is written in order while the session is open."
  },
  {
   "property": "C18",
   "status": "proved",
   "theorems": [
    "Verif.Props.Session.C18_no_read_when_full",
    "Verif.Props.Session.C18_buffer_bound"
   ],
   "note": ""
  },
  {
   "property": "C19",
   "status": "proved",
   "theorems": [
    "Verif.Props.Session.C19_manager_not_forgotten",
    "Verif.Props.Session.C19_transport_not_forgotten"
   ],
   "note": "Waiting tasks are ghost flags of the model, updated from the wakes each operation performs."
  },
  {
   "property": "C20",
   "status": "proved",
   "theorems": [
    "Verif.Props.Session.C20_first_close_decides",
    "Verif.Props.Session.C20_error_reported_once",
    "Verif.Props.Session.C20_closed_iff_cause",
    "Verif.Props.Session.C20_closed_is_final"
   ],
   "note": ""
  },
  {
   "property": "C21",
   "status": "proved",
   "theorems": [
    "Verif.Props.SessionManager.C21_connect_granted",
    "Verif.Props.SessionManager.C21_connect_refused",
    "Verif.Props.SessionManager.C21_opened_iff"
   ],
   "note": ""
  },
  {
   "property": "C22",
   "status": "proved",
   "theorems": [
    "Verif.Props.Client.C22_connection_loopback_only",
    "Verif.Props.SessionManager.C22_loopback_only"
   ],
   "note": ""
  },
  {
   "property": "C23",
   "status": "proved",
   "theorems": [
    "Verif.Props.SessionManager.C23_unknown_session",
    "Verif.Props.SessionManager.C23_known_session"
   ],
   "note": ""
  },
  {
   "property": "C24",
   "status": "proved",
   "theorems": [
    "Verif.Props.SessionManager.C24_isolated",
    "Verif.Props.SessionManager.C24_poll_isolated"
   ],
   "note": ""
  },
  {
   "property": "C25",
   "status": "proved",
   "theorems": [
    "Verif.Props.Client.C25_connection_lives",
    "Verif.Props.SessionManager.C25_lives",
    "Verif.Props.SessionManager.C25_hup",
    "Verif.Props.SessionManager.C25_sent",
    "Verif.Props.SessionManager.C25_server_hup"
   ],
   "note": ""
  },
  {
   "property": "C26",
   "status": "proved",
   "theorems": [
    "Verif.Props.SessionManager.C26_pending_means_nothing_to_send",
    "Verif.Props.SessionManager.C26_bounded_bypass"
   ],
   "note": "Bound in terms of the position in the rotation, which may hold stale entries (C75)."
  },
  {
   "property": "C27",
   "status": "proved",
   "theorems": [
    "Verif.Props.SessionManager.C27_open_sessions_polled"
   ],
   "note": ""
  },
  {
   "property": "C28",
   "status": "partial",
   "theorems": [
    "Verif.Props.SessionManager.C28_false_unreachable_session",
    "Verif.Props.SessionManager.C28_addressable_partial"
   ],
   "note": "False of this code for ids of 2^24 and above: C28_false_unreachable_session. Proved for ids below 2^24."
  },
  {
   "property": "C29",
   "status": "proved",
   "theorems": [
    "Verif.Props.Client.C29_handshake_first",
    "Verif.Props.Client.C29_nothing_before_handshake"
   ],
   "note": ""
  },
  {
   "property": "C30",
   "status": "proved",
   "theorems": [
    "Verif.Props.Client.C30_first_answer",
    "Verif.Props.Client.C30_refusal_ends"
   ],
   "note": ""
  },
  {
   "property": "C31",
   "status": "proved",
   "theorems": [
    "Verif.Props.Client.C31_acks_match",
    "Verif.Props.Client.C31_in_order",
    "Verif.Props.Client.C31_mismatch_refused"
   ],
   "note": ""
  },
  {
   "property": "C32",
   "status": "proved",
   "theorems": [
    "Verif.Props.Client.C32_ack_timeout"
   ],
   "note": ""
  },
  {
   "property": "C33",
   "status": "proved",
   "theorems": [
    "Verif.Props.Client.C33_schedule",
    "Verif.Props.Client.C33_nothing_before_handshake",
    "Verif.Props.Client.C33_announced_version"
   ],
   "note": "Which version counts as announced is C33_announced_version (no change between the two reads of the version; see C76)."
  },
  {
   "property": "C34",
   "status": "proved",
   "theorems": [
    "Verif.Props.Client.C34_redirect_is_final",
    "Verif.Props.Client.C34_redirect_origin",
    "Verif.Props.Client.C34_closed_is_final",
    "Verif.Props.Client.C34_eof_closes"
   ],
   "note": "Unless the transport fails while the last messages are flushed; then the result is that error."
  },
  {
   "property": "C35",
   "status": "proved",
   "theorems": [
    "Verif.Props.Client.C35_ping",
    "Verif.Props.Client.C35_get_status",
    "Verif.Props.Client.C35_get_scan_report",
    "Verif.Props.Client.C35_commands",
    "Verif.Props.Client.C35_sessions",
    "Verif.Props.Client.C35_malformed_refused"
   ],
   "note": ""
  },
  {
   "property": "C36",
   "status": "proved",
   "theorems": [
    "Verif.Props.Client.C36_control_first"
   ],
   "note": ""
  },
  {
   "property": "C37",
   "status": "proved",
   "theorems": [
    "Verif.Props.SvcTable.C37_consistent"
   ],
   "note": ""
  },
  {
   "property": "C38",
   "status": "proved",
   "theorems": [
    "Verif.Props.SvcTable.C38_stable"
   ],
   "note": ""
  },
  {
   "property": "C39",
   "status": "proved",
   "theorems": [
    "Verif.Props.SvcTable.C39_never_panics",
    "Verif.Props.SvcTable.C39_free_id",
    "Verif.Props.SvcTable.C39_panic_iff",
    "Verif.Props.SvcTable.C39_too_many"
   ],
   "note": "The hash function is arbitrary. C39_too_many shows the bound is sharp."
  },
  {
   "property": "C40",
   "status": "proved",
   "theorems": [
    "Verif.Props.SvcTable.C40_control"
   ],
   "note": ""
  },
  {
   "property": "C41",
   "status": "proved",
   "theorems": [
    "Verif.Props.SvcTable.C41_no_change_missed",
    "Verif.Props.SvcTable.C41_no_needless_change",
    "Verif.Props.SvcTable.C41_table_version"
   ],
   "note": "Expiry counts as 65536 changes, an addition as one, towards the 2^32 that may be missed."
  },
  {
   "property": "C42",
   "status": "proved",
   "theorems": [
    "Verif.Props.SvcTable.C42_visible_after_expiry",
    "Verif.Props.SvcTable.C42_visible_after_add"
   ],
   "note": "last_seen + 1200 must fit i64 (it wraps otherwise). The example after the theorems shows an expired service found again staying invisible until the next expiry."
  },
  {
   "property": "C43",
   "status": "proved",
   "theorems": [
    "Verif.Props.SvcTable.C43_save_load",
    "Verif.Props.SvcTable.C43_false_empty_path"
   ],
   "note": "JSON values, not their text (crate json). Formatting and parsing of addresses is assumed faithful (std); MAC addresses are modelled and proved. C43_false_empty_path shows why empty locked paths are excluded."
  },
  {
   "property": "C44",
   "status": "partial",
   "theorems": [
    "Verif.Props.SvcTable.C44_false_duplicate",
    "Verif.Props.SvcTable.C44_false_control",
    "Verif.Props.SvcTable.C44_load_consistent_partial",
    "Verif.Props.SvcTable.C44_load_never_panics",
    "Verif.Props.SvcTable.C44_load_panics"
   ],
   "note": "False of this code: C44_false_duplicate, C44_false_control. Proved for files without duplicates and control entries; C44_load_panics: 65536 valid entries panic at start."
  },
  {
   "property": "C45",
   "status": "proved",
   "theorems": [
    "Verif.Props.Reconnect.C45_retry_policy",
    "Verif.Props.Reconnect.C45_not_too_early"
   ],
   "note": "Exact policy; the scheduler's delays are the only other influence. C45_not_too_early are the lower bounds for any delays."
  },
  {
   "property": "C46",
   "status": "proved",
   "theorems": [
    "Verif.Props.Reconnect.C46_first_attempt",
    "Verif.Props.Reconnect.C46_redirect",
    "Verif.Props.Reconnect.C46_redirects_not_limited"
   ],
   "note": ""
  },
  {
   "property": "C47",
   "status": "proved",
   "theorems": [
    "Verif.Props.Reconnect.C47_exit_code",
    "Verif.Props.Reconnect.C47_no_exit"
   ],
   "note": ""
  },
  {
   "property": "C48",
   "status": "proved",
   "theorems": [
    "Verif.Props.AppContext.C48_only_real_changes",
    "Verif.Props.AppContext.C48_undisturbed_changes_reported",
    "Verif.Props.AppContext.C48_sequential",
    "Verif.Props.AppContext.C48_overlap_loses",
    "Verif.Props.AppContext.C48_state_is_latest",
    "Verif.Props.AppContext.C48_changed_iff"
   ],
   "note": ""
  },
  {
   "property": "C49",
   "status": "proved",
   "theorems": [
    "Verif.Props.CmdHandler.C49_at_most_one_scan",
    "Verif.Props.CmdHandler.C49_when_scans_start"
   ],
   "note": ""
  },
  {
   "property": "C50",
   "status": "proved",
   "theorems": [
    "Verif.Props.CmdHandler.C50_scan_life",
    "Verif.Props.CmdHandler.C50_dead_worker_blocks"
   ],
   "note": "A panic of the scanner thread only leaves the process running when built with unwinding panics; the release profile aborts."
  },
  {
   "property": "C51",
   "status": "proved",
   "theorems": [
    "Verif.Props.Config.C51_saved_when_changed",
    "Verif.Props.Config.C51_saved_only_when_changed",
    "Verif.Props.Config.C51_file_current",
    "Verif.Props.Config.C51_failed_save_not_retried"
   ],
   "note": "C51_failed_save_not_retried is a finding."
  },
  {
   "property": "C52",
   "status": "proved",
   "theorems": [
    "Verif.Props.Config.C52_reset",
    "Verif.Props.Config.C52_old_table_frozen",
    "Verif.Props.Config.C52_same_table_without_reset"
   ],
   "note": "C52_old_table_frozen is a finding."
  },
  {
   "property": "C53",
   "status": "proved",
   "theorems": [
    "Verif.Props.Config.C53_identity_kept",
    "Verif.Props.Config.C53_recovered",
    "Verif.Props.Config.C53_first_start",
    "Verif.Props.Config.C53_lost_without_skeleton",
    "Verif.Props.Config.C53_lost_if_unreadable"
   ],
   "note": "C53_lost_without_skeleton and C53_lost_if_unreadable are findings."
  },
  {
   "property": "C54",
   "status": "proved",
   "theorems": [
    "Verif.Props.Args.C54_service_address",
    "Verif.Props.Args.C54_bare_v6"
   ],
   "note": ""
  },
  {
   "property": "C55",
   "status": "proved",
   "theorems": [
    "Verif.Props.Args.C55_bytes",
    "Verif.Props.Args.C55_v4",
    "Verif.Props.Args.C55_v6",
    "Verif.Props.Args.C55_v4_v6",
    "Verif.Props.Args.C55_identity",
    "Verif.Props.Args.C55_shadowed"
   ],
   "note": ""
  },
  {
   "property": "C56",
   "status": "proved",
   "theorems": [
    "Verif.Scan.C56_filter",
    "Verif.Scan.C56_single",
    "Verif.Scan.C56_two_devices_one_address"
   ],
   "note": ""
  },
  {
   "property": "C57",
   "status": "proved",
   "theorems": [
    "Verif.Scan.C57_hosts",
    "Verif.Scan.C57_services",
    "Verif.Scan.C57_socket_addrs",
    "Verif.Scan.C57_order_and_repetition",
    "Verif.Scan.C57_merge",
    "Verif.Scan.C57_merge_services",
    "Verif.Scan.C57_services_order_matters"
   ],
   "note": ""
  },
  {
   "property": "C58",
   "status": "proved",
   "theorems": [
    "Verif.Discovery.C58_rtsp",
    "Verif.Discovery.C58_mjpeg",
    "Verif.Discovery.C58_verdict",
    "Verif.Discovery.C58_buggy",
    "Verif.Discovery.C58_locked_hides_supported"
   ],
   "note": "The English property of the first draft (a supported path wins over a locked one) is false of the code: C58_locked_hides_supported. The exact rule is proved."
  },
  {
   "property": "C59",
   "status": "proved",
   "theorems": [
    "Verif.Url.C59_components",
    "Verif.Url.C59_accepted",
    "Verif.Url.C59_refused",
    "Verif.Url.C59_no_slash",
    "Verif.Url.C59_bare_v6"
   ],
   "note": ""
  },
  {
   "property": "C60",
   "status": "proved",
   "theorems": [
    "Verif.Props.Http.C60_packets",
    "Verif.Props.Http.C60_final",
    "Verif.Props.Http.C60_lines",
    "Verif.Props.Http.C60_exact",
    "Verif.Props.Http.C60_error",
    "Verif.Props.Http.C60_too_long"
   ],
   "note": ""
  },
  {
   "property": "C61",
   "status": "proved",
   "theorems": [
    "Verif.Props.Http.C61_length",
    "Verif.Props.Http.C61_complete",
    "Verif.Props.Http.C61_truncated",
    "Verif.Props.Http.C61_until_close"
   ],
   "note": "C61_truncated is a finding: truncated bodies are accepted silently."
  },
  {
   "property": "C62",
   "status": "proved",
   "theorems": [
    "Verif.Props.Http.C62_chunked",
    "Verif.Props.Http.C62_complete",
    "Verif.Props.Http.C62_truncated",
    "Verif.Props.Http.C62_garbage"
   ],
   "note": "C62_truncated and C62_garbage are findings."
  },
  {
   "property": "C63",
   "status": "proved",
   "theorems": [
    "Verif.Props.Http.C63_sound",
    "Verif.Props.Http.C63_complete",
    "Verif.Props.Http.C63_no_header",
    "Verif.Props.Http.C63_too_many_lines",
    "Verif.Props.Http.C63_reset"
   ],
   "note": ""
  },
  {
   "property": "C64",
   "status": "proved",
   "theorems": [
    "Verif.Props.Http.C64_history",
    "Verif.Props.Http.C64_last"
   ],
   "note": ""
  },
  {
   "property": "C65",
   "status": "proved",
   "theorems": [
    "Verif.Sdp.C65_reads",
    "Verif.Sdp.C65_no_panic",
    "Verif.Sdp.C65_overflow",
    "Verif.Sdp.C65_attributes_ignored",
    "Verif.Sdp.C65_overflow_small",
    "Verif.Sdp.C65_long_line",
    "Verif.Sdp.C65_rtpmap"
   ],
   "note": ""
  },
  {
   "property": "C66",
   "status": "proved",
   "theorems": [
    "Verif.Props.C66_ip",
    "Verif.Props.C66_tcp",
    "Verif.Props.C66_icmp",
    "Verif.Props.C66_probes"
   ],
   "note": ""
  },
  {
   "property": "C67",
   "status": "proved",
   "theorems": [
    "Verif.Props.C67_ether_layout",
    "Verif.Props.C67_arp_layout",
    "Verif.Props.C67_ip_layout",
    "Verif.Props.C67_icmp_layout",
    "Verif.Props.C67_tcp_layout",
    "Verif.Props.C67_frame",
    "Verif.Props.C67_exact",
    "Verif.Props.C67_echo",
    "Verif.Props.C67_too_many_options"
   ],
   "note": ""
  },
  {
   "property": "C68",
   "status": "proved",
   "theorems": [
    "Verif.Props.C68_panic",
    "Verif.Props.C68_error",
    "Verif.Props.C68_ok",
    "Verif.Props.C68_panic_exists",
    "Verif.Props.C68_panic_tcp_exists"
   ],
   "note": ""
  },
  {
   "property": "C69",
   "status": "proved",
   "theorems": [
    "Verif.Props.C69_arp",
    "Verif.Props.C69_icmp",
    "Verif.Props.C69_hosts",
    "Verif.Props.C69_prefix",
    "Verif.Props.C69_wrap"
   ],
   "note": ""
  },
  {
   "property": "C70",
   "status": "proved",
   "theorems": [
    "Verif.Props.C70_frames",
    "Verif.Props.C70_all",
    "Verif.Props.C70_range",
    "Verif.Props.C70_hidden",
    "Verif.Props.C70_last_port"
   ],
   "note": ""
  },
  {
   "property": "C71",
   "status": "proved",
   "theorems": [
    "Verif.MacText.C71_round_trip",
    "Verif.MacText.C71_parse",
    "Verif.MacText.C71_injective",
    "Verif.MacText.C71_format"
   ],
   "note": "Proved as an equivalence for every text. Longer octets such as 0002, a sign and capital letters are accepted."
  },
  {
   "property": "C72",
   "status": "proved",
   "theorems": [
    "Verif.Log.C72_contents",
    "Verif.Log.C72_recent",
    "Verif.Log.C72_size",
    "Verif.Log.C72_whole",
    "Verif.Log.C72_count",
    "Verif.Log.C72_abort",
    "Verif.Log.C72_no_backups",
    "Verif.Log.C72_rounds",
    "Verif.Log.Example.C72_empty_backup"
   ],
   "note": "Proved. Findings: --log-file-rotations=0 makes a rotation run 2^64-1 rounds that look for files (C72_no_backups; a panic in debug builds); a write error aborts the client (C72_abort); a message longer than the limit makes an empty backup (C72_empty_backup)."
  },
  {
   "property": "C73",
   "status": "proved",
   "theorems": [
    "Verif.Log.C73_exact",
    "Verif.Log.C73_below",
    "Verif.Log.C73_written"
   ],
   "note": "Proved for the file logger."
  },
  {
   "property": "C74",
   "status": "proved",
   "theorems": [
    "Verif.Props.SessionManager.C74_manager_not_forgotten"
   ],
   "note": "Waiting tasks are ghost flags of the model."
  },
  {
   "property": "C75",
   "status": "partial",
   "theorems": [
    "Verif.Props.SessionManager.C75_rotation_grows",
    "Verif.Props.SessionManager.C75_rotation_bound_partial"
   ],
   "note": "False of this code: C75_rotation_grows proves unbounded growth. Proved part: at most one entry per session ever opened, given back when its service ends it."
  },
  {
   "property": "C76",
   "status": "partial",
   "theorems": [
    "Verif.Props.Client.C76_server_up_to_date_partial",
    "Verif.Props.Client.C76_false_update_lost"
   ],
   "note": "False of this code: C76_false_update_lost (a change between reading the services and reading the version is never announced). Proved when no change falls between the two reads."
  },
  {
   "property": "C77",
   "status": "proved",
   "theorems": [
    "Verif.Props.Client.C77_sender_not_forgotten"
   ],
   "note": ""
  },
  {
   "property": "C78",
   "status": "proved",
   "theorems": [
    "Verif.Props.Client.C78_no_panic"
   ],
   "note": "64-bit usize; the message handlers' expect calls are explicit panic outcomes of the model."
  },
  {
   "property": "C79",
   "status": "proved",
   "theorems": [
    "Verif.Props.SvcTable.C79_hash_input",
    "Verif.Props.SvcTable.C79_hash_format",
    "Verif.Props.SvcTable.C79_preferred_id"
   ],
   "note": ""
  },
  {
   "property": "C80",
   "status": "proved",
   "theorems": [
    "Verif.Props.Reconnect.C80_connection_state"
   ],
   "note": ""
  },
  {
   "property": "C81",
   "status": "proved",
   "theorems": [
    "Verif.Props.SessionLog.C81_sessions_independent",
    "Verif.Props.SessionLog.C81_window_respected"
   ],
   "note": ""
  },
  {
   "property": "C82",
   "status": "proved",
   "theorems": [
    "Verif.Props.SessionLog.C82_refusals_answered_once"
   ],
   "note": ""
  },
  {
   "property": "C83",
   "status": "proved",
   "theorems": [
    "Verif.Props.CmdHandler.C83_handler_never_ends"
   ],
   "note": "The comment in ArrowClient::close says dropping the channel ends the handler; it does not, so the handler task and its context are leaked."
  },
  {
   "property": "C84",
   "status": "proved",
   "theorems": [
    "Verif.Props.Args.C84_accepts",
    "Verif.Props.Args.C84_outcome",
    "Verif.Props.Args.C84_ends",
    "Verif.Props.Args.C84_no_address",
    "Verif.Props.Args.C84_help_is_address",
    "Verif.Props.Args.C84_flash_friendly_ignored"
   ],
   "note": ""
  },
  {
   "property": "C85",
   "status": "proved",
   "theorems": [
    "Verif.Props.Args.C85_rtsp_service",
    "Verif.Props.Args.C85_mjpeg_service",
    "Verif.Props.Args.C85_credentials_not_kept"
   ],
   "note": ""
  },
  {
   "property": "C86",
   "status": "proved",
   "theorems": [
    "Verif.Discovery.C86_hosts",
    "Verif.Discovery.C86_scan",
    "Verif.Discovery.C86_whitelist",
    "Verif.Discovery.C86_device_all_or_nothing",
    "Verif.Discovery.C86_camera_aborts_client"
   ],
   "note": "A single host in the network can abort the client: C86_camera_aborts_client. Timeouts are the choice of the answers; the raw scanners are parameters."
  },
  {
   "property": "C87",
   "status": "proved",
   "theorems": [
    "Verif.Props.Http.C87_panic",
    "Verif.Props.Http.C87_ignored"
   ],
   "note": "Finding: a DESCRIBE response with Content-Length 2^63 aborts the client (release builds abort on panic)."
  },
  {
   "property": "C88",
   "status": "proved",
   "theorems": [
    "Verif.Props.Http.C88_http",
    "Verif.Props.Http.C88_rtsp",
    "Verif.Props.Http.C88_options",
    "Verif.Props.Http.C88_get",
    "Verif.Props.Http.C88_describe",
    "Verif.Props.Http.C88_total",
    "Verif.Props.Http.C88_set_adds"
   ],
   "note": "Assumes that to_lowercase agrees with ASCII lower case on ASCII text. Findings: Host without the port, credentials and fragment of the URL are sent in RTSP requests, and set_header_field of the HTTP client adds (C88_set_adds)."
  },
  {
   "property": "C89",
   "status": "proved",
   "theorems": [
    "Verif.Props.C89_arp",
    "Verif.Props.C89_icmp",
    "Verif.Props.C89_tcp",
    "Verif.Props.C89_send_fails",
    "Verif.Props.C89_not_opened",
    "Verif.Props.C89_ends",
    "Verif.Props.C89_late_answer"
   ],
   "note": ""
  },
  {
   "property": "C90",
   "status": "proved",
   "theorems": [
    "Verif.Lock.C90_exclusive",
    "Verif.Lock.C90_kept",
    "Verif.Lock.C90_refused",
    "Verif.Lock.C90_second",
    "Verif.Lock.C90_restart",
    "Verif.Lock.C90_content",
    "Verif.Lock.C90_truncated",
    "Verif.Lock.C90_content_mixed",
    "Verif.Lock.C90_content_zeros"
   ],
   "note": ""
  },
  {
   "property": "C91",
   "status": "proved",
   "theorems": [
    "Verif.Storage.C91_paths",
    "Verif.Storage.C91_lines",
    "Verif.Storage.C91_warning",
    "Verif.Storage.C91_all_or_nothing",
    "Verif.Storage.C91_utf8"
   ],
   "note": ""
  },
  {
   "property": "C92",
   "status": "proved",
   "theorems": [
    "Verif.Storage.C92_current",
    "Verif.Storage.C92_changes",
    "Verif.Storage.C92_values",
    "Verif.Storage.C92_failures",
    "Verif.Storage.C92_untouched",
    "Verif.Storage.C92_not_repeated",
    "Verif.Storage.C92_stale"
   ],
   "note": ""
  },
  {
   "property": "C93",
   "status": "proved",
   "theorems": [
    "Verif.Storage.C93_tree",
    "Verif.Storage.C93_only",
    "Verif.Storage.C93_paths",
    "Verif.Storage.C93_stops",
    "Verif.Storage.C93_der_hides"
   ],
   "note": ""
  },
  {
   "property": "C94",
   "status": "proved",
   "theorems": [
    "Verif.Props.Exports.C94_table",
    "Verif.Props.Exports.C94_faithful",
    "Verif.Props.Exports.C94_nul_aborts",
    "Verif.Props.Exports.C94_buffers"
   ],
   "note": ""
  },
  {
   "property": "C95",
   "status": "proved",
   "theorems": [
    "Verif.Life.C95_once",
    "Verif.Life.C95_commands",
    "Verif.Life.C95_queued",
    "Verif.Life.C95_closed",
    "Verif.Life.C95_ends",
    "Verif.Life.C95_forever",
    "Verif.Life.C95_abort_only",
    "Verif.Life.C95_scan_abort"
   ],
   "note": ""
  },
  {
   "property": "C96",
   "status": "proved",
   "theorems": [
    "Verif.Props.CustomStorage.C96_paths",
    "Verif.Props.CustomStorage.C96_null_paths",
    "Verif.Props.CustomStorage.C96_load",
    "Verif.Props.CustomStorage.C96_saves",
    "Verif.Props.CustomStorage.C96_start",
    "Verif.Props.CustomStorage.C96_persist"
   ],
   "note": ""
  },
  {
   "property": "C97",
   "status": "proved",
   "theorems": [
    "Verif.Props.Tls.C97_timing",
    "Verif.Props.Tls.C97_result",
    "Verif.Props.Tls.C97_starts",
    "Verif.Props.Tls.C97_spacing",
    "Verif.Props.Tls.C97_connect",
    "Verif.Props.Tls.C97_lookup",
    "Verif.Props.Tls.C97_silent",
    "Verif.Props.Tls.C97_refused",
    "Verif.Props.Tls.C97_hostname",
    "Verif.Props.Tls.C97_hostname_v6",
    "Verif.Props.Tls.C97_hostname_given"
   ],
   "note": ""
  },
  {
   "property": "C98",
   "status": "proved",
   "theorems": [
    "Verif.Loggers.C98_silent",
    "Verif.Loggers.C98_below",
    "Verif.Loggers.C98_stderr",
    "Verif.Loggers.C98_syslog",
    "Verif.Loggers.C98_plain",
    "Verif.Loggers.C98_callback",
    "Verif.Loggers.C98_dummy",
    "Verif.Loggers.C98_abort",
    "Verif.Loggers.Example.C98_nul"
   ],
   "note": "A finding: with a callback logger a NUL in a message aborts the application, while the syslog logger escapes it."
  },
  {
   "property": "C99",
   "status": "proved",
   "theorems": [
    "Verif.TlsIo.C99_polls",
    "Verif.TlsIo.C99_no_panic",
    "Verif.TlsIo.C99_context",
    "Verif.TlsIo.C99_pending",
    "Verif.TlsIo.C99_wake"
   ],
   "note": "OpenSSL is a parameter: a program that uses the callbacks. The TCP stream must not return \"would block\" as an error (tokio does not)."
  },
  {
   "property": "C100",
   "status": "proved",
   "theorems": [
    "Verif.Trust.C100_settings",
    "Verif.Trust.C100_handshake",
    "Verif.Trust.C100_default",
    "Verif.Trust.C100_none"
   ],
   "note": "OpenSSL's handshake is a specification (Accepts), not modelled."
  },
  {
   "property": "C101",
   "status": "partial",
   "theorems": [
    "Verif.Trust.C101_code",
    "Verif.Trust.C101_files_partial",
    "Verif.Trust.C101_pem_der_ignored",
    "Verif.Trust.C101_told_false"
   ],
   "note": "False for PEM and DER certificates: they are added to the list of client CAs, not to the trusted ones (C101_pem_der_ignored, C101_told_false). Proved for files, and for the return value."
  },
  {
   "property": "C102",
   "status": "proved",
   "theorems": [
    "Verif.Props.Clients.C102_sequential",
    "Verif.Props.Clients.C102_exclusive",
    "Verif.Props.Clients.C102_identity",
    "Verif.Props.Clients.C102_no_lock"
   ],
   "note": ""
  },
  {
   "property": "C103",
   "status": "proved",
   "theorems": [
    "Verif.Props.Progress.C103_flow_control",
    "Verif.Props.Tunnel.C103_both_ways",
    "Verif.Props.Tunnel.C103_to_server",
    "Verif.Props.Tunnel.C103_to_service"
   ],
   "note": "Session ids of CONNECT have 32 bits on the wire but only 24 in the message header; ids above 2^24 and service 0 are excluded by the hypothesis Usable (see C28)."
  },
  {
   "property": "C104",
   "status": "proved",
   "theorems": [
    "Verif.Props.Naming.C104_one_connection",
    "Verif.Props.Naming.C104_whole_life",
    "Verif.Props.Naming.C104_false_after_reset"
   ],
   "note": "C104_false_after_reset: without the conditions for several connections the claim is false (ids are given again after a reset)."
  },
  {
   "property": "C105",
   "status": "proved",
   "theorems": [
    "Verif.CApi.C105_following_the_rules_is_safe",
    "Verif.CApi.C105_the_rules_are_necessary",
    "Verif.CApi.C105_objects_are_the_pointers",
    "Verif.CApi.C105_no_leak",
    "Verif.CApi.C105_pointers_are_new",
    "Verif.CApi.C105_calls_do_not_abort",
    "Verif.CApi.C105_false_by_the_header"
   ],
   "note": ""
  },
  {
   "property": "C106",
   "status": "partial",
   "theorems": [
    "Verif.CApi.C106_no_callback_afterwards_partial",
    "Verif.CApi.C106_lock_is_free_afterwards_partial",
    "Verif.CApi.C106_joined_without_discovery",
    "Verif.CApi.C106_false_with_discovery"
   ],
   "note": "C106_false_with_discovery: false with discovery. Proved if no scanner thread is at work at that moment (C106_no_callback_afterwards_partial, C106_lock_is_free_afterwards_partial), and without discovery for applications that join their threads (C106_joined_without_discovery)."
  },
  {
   "property": "C107",
   "status": "proved",
   "theorems": [
    "Verif.Props.Progress.C107_nothing_left_behind"
   ],
   "note": ""
  },
  {
   "property": "C108",
   "status": "proved",
   "theorems": [
    "Verif.Props.Busy.C108_sender_does_not_spin",
    "Verif.Props.Busy.C108_session_does_not_spin",
    "Verif.Props.Busy.C108_comes_to_rest"
   ],
   "note": "Tasks of sessions that were already removed are not counted: such a task finds its session closed and ends at its next poll (C11_closed_writes_nothing)."
  },
  {
   "property": "C109",
   "status": "proved",
   "theorems": [
    "Verif.Props.Devices.C109_linux",
    "Verif.Props.Devices.C109_macos",
    "Verif.Props.Devices.C109_windows",
    "Verif.Props.Devices.C109_windows_memory"
   ],
   "note": ""
  },
  {
   "property": "C110",
   "status": "partial",
   "theorems": [
    "Verif.Props.Devices.C110_linux_maskless",
    "Verif.Props.Devices.C110_macos_maskless",
    "Verif.Props.Devices.C110_windows_host_prefix",
    "Verif.Props.Devices.C110_linux_partial",
    "Verif.Props.Devices.C110_macos_partial",
    "Verif.Props.Devices.C110_windows_partial",
    "Verif.Props.Devices.C110_windows_no_memory"
   ],
   "note": "False: C110_linux_maskless, C110_macos_maskless (NULL dereference for an Ethernet entry with an IPv4 address and no mask), C110_windows_host_prefix (shift by 32), C110_windows_no_memory (NULL name). The _partial theorems say that, with allocations that succeed, these answers are the only ones; C109 has the rest (no fault on Linux and macOS whichever allocations fail, C109_windows_memory for the C part on Windows)."
  },
  {
   "property": "C111",
   "status": "proved",
   "theorems": [
    "Verif.Props.C111_safe",
    "Verif.Props.C111_filter_none"
   ],
   "note": "C111_filter_none: CaptureBuilder::filter(None) always aborts the client; it is only called with a filter."
  },
  {
   "property": "C112",
   "status": "partial",
   "theorems": [
    "Verif.Props.C112_windows",
    "Verif.Props.C112_unix",
    "Verif.Props.C112_listener",
    "Verif.Props.C112_unix_partial",
    "Verif.Props.C112_unix_not"
   ],
   "note": "False of the code on Linux and macOS: pcap_wrapper__read_packet returns the positive numbers EIO and errno when pcap_setnonblock or poll fails, and read_packet takes them for a captured frame (C112_unix_not; C112_unix says exactly what is answered). Proved in full for Windows (C112_windows) and for all other reads and writes on Linux and macOS (C112_unix_partial)."
  },
  {
   "property": "C113",
   "status": "partial",
   "theorems": [
    "Verif.Props.C113_windows",
    "Verif.Props.C113_unix_partial",
    "Verif.Props.C113_unix_silent",
    "Verif.Props.C113_unix_not"
   ],
   "note": "False of the code on Linux and macOS for failures of pcap_setnonblock and poll (see C112): such a scan spins without waiting until the total timeout of 20 s and then reports an empty list without an error (C113_unix_silent, C113_unix_not). Proved for Windows and for failures reported by pcap_dispatch."
  },
  {
   "property": "C114",
   "status": "proved",
   "theorems": [
    "Verif.Props.C114_get",
    "Verif.Props.C114_control",
    "Verif.Props.C114_id",
    "Verif.Props.C114_agree"
   ],
   "note": ""
  },
  {
   "property": "C115",
   "status": "partial",
   "theorems": [
    "Verif.Props.C115_frames",
    "Verif.Props.C115_requests",
    "Verif.Props.C115_reported",
    "Verif.Props.C115_local_partial",
    "Verif.Props.C115_foreign_address"
   ],
   "note": "The last sentence is false: an ARP reply may claim any address (C115_foreign_address); proved if ARP packets and TCP segments claim addresses of the network only. The other sentences are proved in full."
  },
  {
   "property": "C116",
   "status": "proved",
   "theorems": [
    "Verif.Props.Builder.C116_settings",
    "Verif.Props.Builder.C116_fails",
    "Verif.Props.Builder.C116_panics",
    "Verif.Props.Builder.C116_saves",
    "Verif.Props.Builder.C116_warnings",
    "Verif.Props.Builder.C116_asks",
    "Verif.Props.Builder.C116_c_interface"
   ],
   "note": ""
  },
  {
   "property": "C117",
   "status": "proved",
   "theorems": [
    "Verif.Props.Builder.C117_arguments",
    "Verif.Props.Builder.C117_no_address",
    "Verif.Props.Builder.C117_locked",
    "Verif.Props.Builder.C117_log_file",
    "Verif.Props.Builder.C117_starts",
    "Verif.Props.Builder.C117_running",
    "Verif.Props.Builder.C117_ends"
   ],
   "note": ""
  },
  {
   "property": "C118",
   "status": "proved",
   "theorems": [
    "Verif.Props.Load.C118_table",
    "Verif.Props.Load.C118_accepted",
    "Verif.Props.Load.C118_panics",
    "Verif.Props.Load.C118_config",
    "Verif.Props.Load.C118_config_panics",
    "Verif.Props.Load.C118_started"
   ],
   "note": ""
  },
  {
   "property": "C119",
   "status": "proved",
   "theorems": [
    "Verif.Props.Uplink.C119_unauthorized",
    "Verif.Props.Uplink.C119_unsupported",
    "Verif.Props.Uplink.C119_refused",
    "Verif.Props.Uplink.C119_only_a_refusal_stops",
    "Verif.Props.Uplink.C119_next_attempt",
    "Verif.Props.Uplink.C119_goes_on",
    "Verif.Props.Uplink.C119_unreachable"
   ],
   "note": ""
  },
  {
   "property": "C120",
   "status": "proved",
   "theorems": [
    "Verif.Props.Origin.C120_connects_only_to_given",
    "Verif.Props.Origin.C120_tells_only_given"
   ],
   "note": "The address book is the service table: configured services, files and scans; the wire only carries ids."
  },
  {
   "property": "C121",
   "status": "proved",
   "theorems": [
    "Verif.Props.Found.C121_found_is_visible",
    "Verif.Props.Found.C121_announced",
    "Verif.Props.Found.C121_told_can_be_used"
   ],
   "note": ""
  },
  {
   "property": "C122",
   "status": "proved",
   "theorems": [
    "Verif.Props.Secure.C122_vouched",
    "Verif.Props.Secure.C122_sent_to_genuine",
    "Verif.Props.Secure.C122_man_in_the_middle"
   ],
   "note": "With whom OpenSSL completes a handshake is a specification (Shakes in Model/Secure.lean): a version that is not switched off, a trusted authority, and the verified name."
  },
  {
   "property": "C123",
   "status": "proved",
   "theorems": [
    "Verif.Props.Survey.C123_connects_only_to_heard",
    "Verif.Props.Survey.C123_connects_only_to_local",
    "Verif.Props.Survey.C123_found_is_visible",
    "Verif.Props.Survey.C123_foreign_address"
   ],
   "note": "Composes C86, C115, C120 and C121. The address may be foreign if a host lies (C123_foreign_address)."
  },
  {
   "property": "C124",
   "status": "proved",
   "theorems": [
    "Verif.Props.C124_frame_in_bounds",
    "Verif.Props.C124_packets_in_bounds",
    "Verif.Props.C124_message_in_bounds",
    "Verif.Props.C124_checksum_in_bounds",
    "Verif.Props.C124_reads_the_bytes",
    "Verif.Props.C124_short_header_panics",
    "Verif.Props.C124_short_tcp_header_panics",
    "Verif.Props.C124_words_would_fault"
   ],
   "note": ""
  },
  {
   "property": "C125",
   "status": "proved",
   "theorems": [
    "Verif.Props.Backlog.C125_waiting_bound",
    "Verif.Props.Backlog.C125_poll_adds_nothing",
    "Verif.Props.Backlog.C125_reads_one_while_waiting",
    "Verif.Props.Backlog.C125_bytes_held"
   ],
   "note": ""
  },
  {
   "property": "C126",
   "status": "proved",
   "theorems": [
    "Verif.Props.Secrecy.C126_identity_only_in_register",
    "Verif.Props.Secrecy.C126_key_bytes"
   ],
   "note": ""
  },
  {
   "property": "C127",
   "status": "proved",
   "theorems": [
    "Verif.ScanTime.C127_request_time",
    "Verif.ScanTime.C127_scan_time",
    "Verif.ScanTime.C127_one_at_a_time",
    "Verif.ScanTime.C127_all_requests",
    "Verif.ScanTime.C127_no_more_requests",
    "Verif.ScanTime.C127_slow_server"
   ],
   "note": ""
  },
  {
   "property": "C128",
   "status": "proved",
   "theorems": [
    "Verif.Props.Cadence.C128_scans_recur",
    "Verif.Props.Cadence.C128_starts_in_time",
    "Verif.Props.Cadence.C128_one_scan",
    "Verif.Props.Cadence.C128_not_before",
    "Verif.Props.Cadence.C128_reports_recur",
    "Verif.Props.Cadence.C128_visible",
    "Verif.Props.Cadence.C128_vanished",
    "Verif.Props.Cadence.C128_kept"
   ],
   "note": "The bounds on trigger, reaction and scan times are parameters (Timing); time cannot pass a deadline. Requests for a scan (`scanNetwork`) are allowed in all theorems but C128_not_before."
  },
  {
   "property": "C129",
   "status": "proved",
   "theorems": [
    "Verif.Props.Silence.C129_silent_server",
    "Verif.Props.Silence.C129_no_handshake",
    "Verif.Props.Silence.C129_fresh",
    "Verif.Props.Silence.C129_server_knows"
   ],
   "note": ""
  },
  {
   "property": "C130",
   "status": "proved",
   "theorems": [
    "Verif.Props.Appear.C130_scan_reported",
    "Verif.Props.Appear.C130_next_scan",
    "Verif.Props.Appear.C130_appears",
    "Verif.Props.Appear.C130_announced",
    "Verif.Props.Appear.C130_withdrawn"
   ],
   "note": ""
  },
  {
   "property": "C131",
   "status": "proved",
   "theorems": [
    "Verif.Props.Outage.C131_returns",
    "Verif.Props.Outage.C131_reconnects",
    "Verif.Props.Outage.C131_mute",
    "Verif.Props.Outage.C131_next_minute",
    "Verif.Props.Outage.C131_every_minute",
    "Verif.Props.Outage.C131_found_again"
   ],
   "note": ""
  },
  {
   "property": "C132",
   "status": "proved",
   "theorems": [
    "Verif.Props.Locks.C132_no_deadlock",
    "Verif.Props.Locks.C132_exclusive",
    "Verif.Props.Locks.C132_completes",
    "Verif.Props.Locks.C132_fair",
    "Verif.Props.Locks.C132_storage_callback_hangs",
    "Verif.Props.Locks.C132_logger_callback_hangs"
   ],
   "note": ""
  },
  {
   "property": "C133",
   "status": "proved",
   "theorems": [
    "Verif.Props.Shared.C133_atomic",
    "Verif.Props.Shared.C133_order",
    "Verif.Props.Shared.C133_table",
    "Verif.Props.Shared.C133_reads",
    "Verif.Props.Shared.C133_ids",
    "Verif.Props.Shared.C133_half_report_seen"
   ],
   "note": ""
  },
  {
   "property": "C134",
   "status": "proved",
   "theorems": [
    "Verif.Props.Teardown.C134_after_return",
    "Verif.Props.Teardown.C134_after_close",
    "Verif.Props.Teardown.C134_record",
    "Verif.Props.Teardown.C134_removed",
    "Verif.Props.Teardown.C134_hup",
    "Verif.Props.Teardown.C134_time_goes_on",
    "Verif.Props.Teardown.C134_connecting_goes_on"
   ],
   "note": "Finding: neither a HUP nor the end of the connection stops a connection to a service that is being established; it goes on for up to 20 seconds (C134_connecting_goes_on)."
  },
  {
   "property": "C135",
   "status": "proved",
   "theorems": [
    "Verif.Props.Count.C135_one_per_request",
    "Verif.Props.Count.C135_being_established",
    "Verif.Props.Count.C135_in_use",
    "Verif.Props.Count.C135_no_limit"
   ],
   "note": "C135_no_limit is a finding: the number of simultaneous connections to services is not limited."
  },
  {
   "property": "C136",
   "status": "proved",
   "theorems": [
    "Verif.Props.Rate.C136_rate",
    "Verif.Props.Rate.C136_rate_authorized",
    "Verif.Props.Rate.C136_refusals",
    "Verif.Props.Rate.C136_diagnostic"
   ],
   "note": ""
  },
  {
   "property": "C137",
   "status": "proved",
   "theorems": [
    "Verif.Props.Identity.C137_names_the_client",
    "Verif.Props.Identity.C137_public",
    "Verif.Props.Identity.C137_only_if_asked",
    "Verif.Props.Identity.C137_may_be_stale"
   ],
   "note": "C137_may_be_stale is a finding."
  },
  {
   "property": "C138",
   "status": "proved",
   "theorems": [
    "Verif.Props.Stream.C138_only_what_a_client_says",
    "Verif.Props.Stream.C138_server_decodes"
   ],
   "note": ""
  },
  {
   "property": "C139",
   "status": "proved",
   "theorems": [
    "Verif.Props.Status.C139_status",
    "Verif.Props.Status.C139_open"
   ],
   "note": ""
  },
  {
   "property": "C140",
   "status": "proved",
   "theorems": [
    "Verif.Props.Solicited.C140_solicited"
   ],
   "note": ""
  }
 ]
}
