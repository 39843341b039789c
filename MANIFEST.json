{
 "claims": [
  {
   "property": "C01",
   "status": "proved",
   "theorems": [
    "Verif.Props.C01_decode_encode"
   ],
   "note": ""
  },
  {
   "property": "C02",
   "status": "proved",
   "theorems": [
    "Verif.Props.C02_encode_alphabet",
    "Verif.Props.C02_encode_unreserved"
   ],
   "note": ""
  },
  {
   "property": "C03",
   "status": "proved",
   "theorems": [
    "Verif.Props.C03_decode_safe"
   ],
   "note": ""
  },
  {
   "property": "C04",
   "status": "proved",
   "theorems": [
    "Verif.Props.C04_decode_spec"
   ],
   "note": ""
  },
  {
   "property": "C05",
   "status": "proved",
   "theorems": [
    "Verif.Props.C05_utf8_exact",
    "Verif.Props.C05_utf8Ok"
   ],
   "note": ""
  },
  {
   "property": "C06",
   "status": "proved",
   "theorems": [
    "Verif.Props.C06_utf8_position"
   ],
   "note": ""
  },
  {
   "property": "C07",
   "status": "proved",
   "theorems": [
    "Verif.Props.C07_refines_ordered_map"
   ],
   "note": ""
  },
  {
   "property": "C08",
   "status": "proved",
   "theorems": [
    "Verif.Props.C08_keys_unique"
   ],
   "note": ""
  },
  {
   "property": "C09",
   "status": "partial",
   "theorems": [
    "Verif.Props.C09_memory_safe_partial",
    "Verif.Props.C09_false_value_search",
    "Verif.Props.C09_false_null_value",
    "Verif.Props.C09_false_wrap"
   ],
   "note": "safe for the functions and arguments named; the full claim is false of the code, witnesses given"
  },
  {
   "property": "C10",
   "status": "proved",
   "theorems": [
    "Verif.Props.C10_blocks_concatenate"
   ],
   "note": ""
  },
  {
   "property": "C11",
   "status": "partial",
   "theorems": [
    "Verif.Props.C11_length_partial",
    "Verif.Props.C11_false"
   ],
   "note": "the full claim is false of the code"
  },
  {
   "property": "C12",
   "status": "proved",
   "theorems": [
    "Verif.Props.C12_case_insensitive"
   ],
   "note": ""
  },
  {
   "property": "C13",
   "status": "proved",
   "theorems": [
    "Verif.Props.C13_copy_exact"
   ],
   "note": ""
  },
  {
   "property": "C14",
   "status": "partial",
   "theorems": [
    "Verif.Props.C14_copy_into_partial",
    "Verif.Props.C14_false"
   ],
   "note": "false for binary values"
  },
  {
   "property": "C15",
   "status": "partial",
   "theorems": [
    "Verif.Props.C15_case_partial",
    "Verif.Props.C15_prefix_partial",
    "Verif.Props.C15_binary_partial",
    "Verif.Props.C15_null",
    "Verif.Props.C15_false"
   ],
   "note": "the case-insensitive search is exact; false for u_map_has_value: prefix match and over-read"
  },
  {
   "property": "C16",
   "status": "partial",
   "theorems": [
    "Verif.Props.C16_failed_put_partial",
    "Verif.Props.C16_false_new_key",
    "Verif.Props.C16_false_existing_key"
   ],
   "note": "false for the later allocations"
  },
  {
   "property": "C17",
   "status": "proved",
   "theorems": [
    "Verif.Props.C17_format_match"
   ],
   "note": ""
  },
  {
   "property": "C18",
   "status": "proved",
   "theorems": [
    "Verif.Props.C18_slashes"
   ],
   "note": ""
  },
  {
   "property": "C19",
   "status": "proved",
   "theorems": [
    "Verif.Props.C19_selection"
   ],
   "note": "qsort modelled as any sorted permutation"
  },
  {
   "property": "C20",
   "status": "partial",
   "theorems": [
    "Verif.Props.C20_selectable_partial",
    "Verif.Props.C20_add",
    "Verif.Props.C20_selectable_false"
   ],
   "note": "false when the null endpoint is added: it is accepted and hides later endpoints; proved for all other histories"
  },
  {
   "property": "C21",
   "status": "proved",
   "theorems": [
    "Verif.Props.C21_remove",
    "Verif.Props.C21_remove_params"
   ],
   "note": ""
  },
  {
   "property": "C22",
   "status": "partial",
   "theorems": [
    "Verif.Props.C22_params_partial",
    "Verif.Props.C22_params_value_partial",
    "Verif.Props.C22_params_false"
   ],
   "note": "false for '?' format segments and for query parameters of the same name; proved otherwise"
  },
  {
   "property": "C23",
   "status": "partial",
   "theorems": [
    "Verif.Props.C23_collect_partial",
    "Verif.Props.C23_collect_false"
   ],
   "note": "false when a pair has an empty key (collection stops); proved otherwise"
  },
  {
   "property": "C24",
   "status": "proved",
   "theorems": [
    "Verif.Props.C24_chain",
    "Verif.Props.C24_chain_answer"
   ],
   "note": "a callback that installs a stream or a websocket also ends the chain"
  },
  {
   "property": "C25",
   "status": "proved",
   "theorems": [
    "Verif.Props.C25_position"
   ],
   "note": ""
  },
  {
   "property": "C26",
   "status": "partial",
   "theorems": [
    "Verif.Props.C26_status_partial",
    "Verif.Props.C26_status_false"
   ],
   "note": "false in corner cases: unknown code from the default endpoint gives no answer; stream + UNAUTHORIZED answers 200"
  },
  {
   "property": "C27",
   "status": "partial",
   "theorems": [
    "Verif.Props.C27_default_partial",
    "Verif.Props.C27_set",
    "Verif.Props.C27_default_false"
   ],
   "note": "false: a default endpoint that returns IGNORE is called twice; proved otherwise"
  },
  {
   "property": "C28",
   "status": "proved",
   "theorems": [
    "Verif.Props.C28_body",
    "Verif.Props.C28_chunking"
   ],
   "note": "total below 2^64 bytes"
  },
  {
   "property": "C29",
   "status": "partial",
   "theorems": [
    "Verif.Props.C29_value_partial",
    "Verif.Props.C29_ascii_partial",
    "Verif.Props.C29_upload_callback",
    "Verif.Props.C29_chunking_false",
    "Verif.Props.C29_empty_first_false",
    "Verif.Props.C29_limit_breaks_utf8_false"
   ],
   "note": "false with check_utf8 when a chunk boundary cuts a character; proved when each chunk is valid (always for ASCII)"
  },
  {
   "property": "C30",
   "status": "proved",
   "theorems": [
    "Verif.Props.C30_response",
    "Verif.Props.C30_response_refused",
    "Verif.Props.C30_stream",
    "Verif.Props.C30_request"
   ],
   "note": ""
  },
  {
   "property": "C31",
   "status": "proved",
   "theorems": [
    "Verif.Props.C31_cookies",
    "Verif.Props.C31_both"
   ],
   "note": ""
  },
  {
   "property": "C32",
   "status": "partial",
   "theorems": [
    "Verif.Props.C32_set_cookie_partial",
    "Verif.Props.C32_max_age_false"
   ],
   "note": "false for max_age >= 2^31 (printed with %d); proved below, for names without '=' or leading space"
  },
  {
   "property": "C33",
   "status": "partial",
   "theorems": [
    "Verif.Props.C33_duplicate_partial",
    "Verif.Props.C33_duplicate_false",
    "Verif.Props.C33_cookie_false"
   ],
   "note": "false: the copy is refused for every response built with the API (no protocol); with a protocol, cookies with a NULL attribute leave dangling pointers"
  },
  {
   "property": "C34",
   "status": "partial",
   "theorems": [
    "Verif.Props.C34_duplicate_partial",
    "Verif.Props.C34_binary_false",
    "Verif.Props.C34_address_false"
   ],
   "note": "false for binary values and IPv6 client addresses; proved for string values"
  },
  {
   "property": "C35",
   "status": "partial",
   "theorems": [
    "Verif.Props.C35_export_partial",
    "Verif.Props.C35_second_export_false"
   ],
   "note": "false: the first export cuts http_url, every later export returns NULL"
  },
  {
   "property": "C36",
   "status": "partial",
   "theorems": [
    "Verif.Props.C36_absolute_partial",
    "Verif.Props.C36_relative",
    "Verif.Props.C36_port_overflow_false",
    "Verif.Props.C36_port_wrap_false"
   ],
   "note": "port numbers below 2^31"
  },
  {
   "property": "C37",
   "status": "partial",
   "theorems": [
    "Verif.Props.C37_split_path_partial",
    "Verif.Props.C37_query_partial",
    "Verif.Props.C37_split_zero_false",
    "Verif.Props.C37_query_truncated_false"
   ],
   "note": "false for an empty array and for a truncated query"
  },
  {
   "property": "C38",
   "status": "proved",
   "theorems": [
    "Verif.Props.C38_body_limit"
   ],
   "note": "total body below 2^64-1 bytes"
  },
  {
   "property": "C39",
   "status": "proved",
   "theorems": [
    "Verif.Props.C39_headers",
    "Verif.Props.C39_malformed_false"
   ],
   "note": "for well-formed header lines; C39_malformed_false shows what malformed lines do"
  },
  {
   "property": "C40",
   "status": "proved",
   "theorems": [
    "Verif.Props.C40_payload"
   ],
   "note": ""
  },
  {
   "property": "C41",
   "status": "partial",
   "theorems": [
    "Verif.Props.C41_cookies_partial",
    "Verif.Props.C41_use_after_free_false",
    "Verif.Props.C41_empty_value_false"
   ],
   "note": "false: a cookie with fewer fields after one with more reads and frees freed memory; exact characterisation proved"
  },
  {
   "property": "C42",
   "status": "partial",
   "theorems": [
    "Verif.Props.C42_url_partial",
    "Verif.Props.C42_fragment_false"
   ],
   "note": "false for every URL with a fragment; proved for the others"
  },
  {
   "property": "C66",
   "status": "proved",
   "theorems": [
    "Verif.Props.C66_form"
   ],
   "note": ""
  },
  {
   "property": "C67",
   "status": "partial",
   "theorems": [
    "Verif.Props.C67_cookie_partial",
    "Verif.Props.C67_list_partial",
    "Verif.Props.C67_flags_false",
    "Verif.Props.C67_sample_false"
   ],
   "note": "false: Secure and HttpOnly are read from the wrong columns"
  },
  {
   "property": "C68",
   "status": "partial",
   "theorems": [
    "Verif.Props.C68_mail_partial",
    "Verif.Props.C68_injection_false"
   ],
   "note": "false: CR LF in a field adds header lines"
  },
  {
   "property": "C43",
   "status": "proved",
   "theorems": [
    "Verif.Props.C43_round_trip"
   ],
   "note": ""
  },
  {
   "property": "C44",
   "status": "partial",
   "theorems": [
    "Verif.Props.C44_rfc_partial",
    "Verif.Props.C44_opcodes",
    "Verif.Props.C44_rfc_false",
    "Verif.Props.C44_masked_false"
   ],
   "note": "false from 2^54 bytes on (first length byte), and from 2^32 bytes on when masked (endless loop)"
  },
  {
   "property": "C45",
   "status": "partial",
   "theorems": [
    "Verif.Props.C45_one_frame_partial",
    "Verif.Props.C45_fragmented_false"
   ],
   "note": "false for every message really cut into fragments: the first frame has opcode 0 and the receiver closes"
  },
  {
   "property": "C46",
   "status": "proved",
   "theorems": [
    "Verif.Props.C46_reassembly",
    "Verif.Props.C46_every_stream"
   ],
   "note": ""
  },
  {
   "property": "C47",
   "status": "proved",
   "theorems": [
    "Verif.Props.C47_text_is_utf8"
   ],
   "note": ""
  },
  {
   "property": "C48",
   "status": "proved",
   "theorems": [
    "Verif.Props.C48_after_frame",
    "Verif.Props.C48_after_control",
    "Verif.Props.C48_after_disconnection"
   ],
   "note": ""
  },
  {
   "property": "C49",
   "status": "proved",
   "theorems": [
    "Verif.Props.C49_masking"
   ],
   "note": ""
  },
  {
   "property": "C50",
   "status": "partial",
   "theorems": [
    "Verif.Props.C50_rsv_partial",
    "Verif.Props.C50_overlap_false",
    "Verif.Props.C50_control_false"
   ],
   "note": "false: overlap suffices; RSV bits of control and continuation frames are not checked"
  },
  {
   "property": "C51",
   "status": "proved",
   "theorems": [
    "Verif.Props.C51_fifo"
   ],
   "note": ""
  },
  {
   "property": "C69",
   "status": "proved",
   "theorems": [
    "Verif.Props.C69_segmentation"
   ],
   "note": ""
  },
  {
   "property": "C70",
   "status": "partial",
   "theorems": [
    "Verif.Props.C70_before_hangup_partial",
    "Verif.Props.C70_hangup_false"
   ],
   "note": "false: bytes unread when the hang-up is noticed are lost"
  },
  {
   "property": "C71",
   "status": "partial",
   "theorems": [
    "Verif.Props.C71_uninitialised_partial",
    "Verif.Props.C71_heap_bytes_false"
   ],
   "note": "false exactly for fragments of at most 125 bytes of messages of 126 to 65535 bytes"
  },
  {
   "property": "C72",
   "status": "proved",
   "theorems": [
    "Verif.Props.C72_pong"
   ],
   "note": ""
  },
  {
   "property": "C73",
   "status": "partial",
   "theorems": [
    "Verif.Props.C73_outgoing_partial",
    "Verif.Props.C73_opcode_false"
   ],
   "note": "false: opcode of every non-empty message is recorded as 0"
  },
  {
   "property": "C74",
   "status": "partial",
   "theorems": [
    "Verif.Props.C74_progress_partial",
    "Verif.Props.C74_prefix",
    "Verif.Props.C74_whole_partial",
    "Verif.Props.C74_not_sent_false"
   ],
   "note": "false: U_OK is returned when nothing or only part was sent"
  },
  {
   "property": "C75",
   "status": "partial",
   "theorems": [
    "Verif.Props.C75_inverse_partial",
    "Verif.Props.C75_sent_partial",
    "Verif.Props.C76_user_data_false"
   ],
   "note": "false when in and out functions have different user data"
  },
  {
   "property": "C76",
   "status": "partial",
   "theorems": [
    "Verif.Props.C76_same_data_partial",
    "Verif.Props.C76_user_data_false"
   ],
   "note": "false: the in function gets the user data of the out function"
  },
  {
   "property": "C77",
   "status": "partial",
   "theorems": [
    "Verif.Props.C77_empty_partial",
    "Verif.Props.C77_clear_false"
   ],
   "note": "false: undefined behaviour after clearing a list that held messages"
  },
  {
   "property": "C78",
   "status": "partial",
   "theorems": [
    "Verif.Props.C78_incoming_partial",
    "Verif.Props.C78_closing_false"
   ],
   "note": "false for frames received during the closing handshake"
  },
  {
   "property": "C52",
   "status": "proved",
   "theorems": [
    "Verif.Props.C52_disjoint"
   ],
   "note": ""
  },
  {
   "property": "C53",
   "status": "proved",
   "theorems": [
    "Verif.Props.C53_upgrade"
   ],
   "note": ""
  },
  {
   "property": "C54",
   "status": "partial",
   "theorems": [
    "Verif.Props.C54_opens_partial",
    "Verif.Props.C54_first_line",
    "Verif.Props.C54_status",
    "Verif.Props.C54_accept_ignored_false",
    "Verif.Props.C54_one_mark_false",
    "Verif.Props.C54_truncated_false"
   ],
   "note": "false: the accept value is never looked at, one mark is enough, a truncated answer is reported as success"
  },
  {
   "property": "C55",
   "status": "proved",
   "theorems": [
    "Verif.Props.C55_subprotocol"
   ],
   "note": ""
  },
  {
   "property": "C56",
   "status": "proved",
   "theorems": [
    "Verif.Props.C56_uniform",
    "Verif.Props.C56_key",
    "Verif.Props.C56_alphabet",
    "Verif.Props.C56_alphabet_uniform"
   ],
   "note": ""
  },
  {
   "property": "C57",
   "status": "proved",
   "theorems": [
    "Verif.Props.C57_deadline"
   ],
   "note": ""
  },
  {
   "property": "C61",
   "status": "partial",
   "theorems": [
    "Verif.Props.C61_match_partial",
    "Verif.Props.C61_accepts",
    "Verif.Props.C61_window8_false",
    "Verif.Props.C61_misspelt_false"
   ],
   "note": "false: a window of 8 is answered and used as 9, misspelt parameter names are accepted"
  },
  {
   "property": "C79",
   "status": "proved",
   "theorems": [
    "Verif.Props.C79_agree",
    "Verif.Props.C79_same_bit"
   ],
   "note": ""
  },
  {
   "property": "C80",
   "status": "partial",
   "theorems": [
    "Verif.Props.C80_anywhere_partial",
    "Verif.Props.C80_absent",
    "Verif.Props.C80_later_false"
   ],
   "note": "false: an offer after \", \" keeps its leading blank and is not recognised"
  },
  {
   "property": "C58",
   "status": "partial",
   "theorems": [
    "Verif.Props.C58_empty_partial",
    "Verif.Props.C58_wakeup",
    "Verif.Props.C58_progress_partial",
    "Verif.Props.C58_bounded",
    "Verif.Props.C58_returns_partial",
    "Verif.Props.C58_late_false"
   ],
   "note": "restricted to registrations kept apart (see C59); progress and return also need that no connection is lost before its upgrade (see C83); false for a websocket opened after the last test"
  },
  {
   "property": "C59",
   "status": "partial",
   "theorems": [
    "Verif.Props.C59_safe_partial",
    "Verif.Props.C59_complete_partial",
    "Verif.Props.C59_overflow_false",
    "Verif.Props.C59_doubleFree_false",
    "Verif.Props.C59_remove_false"
   ],
   "note": "false: the table is enlarged outside the lock; safe and complete when registrations are kept apart"
  },
  {
   "property": "C60",
   "status": "partial",
   "theorems": [
    "Verif.Props.C60_asleep_partial",
    "Verif.Props.C60_closed",
    "Verif.Props.C60_open",
    "Verif.Props.C60_running",
    "Verif.Props.C60_missed_false",
    "Verif.Props.C60_spurious_false",
    "Verif.Props.C60_server_false"
   ],
   "note": "false: lost wakeup, spurious wakeup, and the server side never broadcasts"
  },
  {
   "property": "C81",
   "status": "partial",
   "theorems": [
    "Verif.Props.C81_flag_partial",
    "Verif.Props.C81_keep_partial",
    "Verif.Props.C81_upgrade_false",
    "Verif.Props.C81_late_false"
   ],
   "note": "false: the upgrade clears the flag, later registrations are never asked"
  },
  {
   "property": "C82",
   "status": "partial",
   "theorems": [
    "Verif.Props.C82_window_partial",
    "Verif.Props.C82_quiet_partial",
    "Verif.Props.C82_clean_false"
   ],
   "note": "false: the count is lowered before the last use of the locks"
  },
  {
   "property": "C83",
   "status": "partial",
   "theorems": [
    "Verif.Props.C83_returns_partial",
    "Verif.Props.C83_lost_false"
   ],
   "note": "false: a lost connection stays in the table, the stop then waits for ever"
  },
  {
   "property": "C84",
   "status": "partial",
   "theorems": [
    "Verif.Props.C84_clear_partial",
    "Verif.Props.C84_early_false"
   ],
   "note": "false: CLOSE is returned as soon as connected is 0, the thread still runs"
  },
  {
   "property": "C85",
   "status": "partial",
   "theorems": [
    "Verif.Props.C85_careful_partial",
    "Verif.Props.C85_reusable",
    "Verif.Props.C85_close_false",
    "Verif.Props.C85_retry_false",
    "Verif.Props.C85_null_false"
   ],
   "note": "false: the handle keeps a dangling or null pointer after close, a failed open, or wait_close"
  },
  {
   "property": "C62",
   "status": "partial",
   "theorems": [
    "Verif.Props.C62_init",
    "Verif.Props.C62_initIpv6",
    "Verif.Props.C62_fresh",
    "Verif.Props.C62_started_partial",
    "Verif.Props.C62_accepts",
    "Verif.Props.C62_defined",
    "Verif.Props.C62_blank_false",
    "Verif.Props.C62_options_false"
   ],
   "note": "initialisation and start are characterised exactly; false: a blank endpoint may stand in the list, and ulfius_start_framework_with_mhd_options validates nothing"
  },
  {
   "property": "C63",
   "status": "proved",
   "theorems": [
    "Verif.Props.C63_tls",
    "Verif.Props.C63_others",
    "Verif.Props.C63_refused",
    "Verif.Props.C63_options"
   ],
   "note": ""
  },
  {
   "property": "C64",
   "status": "partial",
   "theorems": [
    "Verif.Props.C64_overflow_false",
    "Verif.Props.C64_empty_partial"
   ],
   "note": "false for every list that is not empty: the block is sized for pointers, not for endpoints"
  },
  {
   "property": "C65",
   "status": "partial",
   "theorems": [
    "Verif.Props.C65_prefix_partial",
    "Verif.Props.C65_down_partial",
    "Verif.Props.C65_serves",
    "Verif.Props.C65_cache_partial",
    "Verif.Props.C65_sibling_false"
   ],
   "note": "false: a sibling directory whose name begins like the root is served"
  },
  {
   "property": "C86",
   "status": "partial",
   "theorems": [
    "Verif.Props.C86_twice_false",
    "Verif.Props.C86_refused_partial"
   ],
   "note": "false: the second start forgets the daemon, which can not be stopped any more"
  },
  {
   "property": "C87",
   "status": "proved",
   "theorems": [
    "Verif.Props.C87_ipv4",
    "Verif.Props.C87_ipv6"
   ],
   "note": ""
  },
  {
   "property": "C88",
   "status": "partial",
   "theorems": [
    "Verif.Props.C88_life_partial",
    "Verif.Props.C88_clean_false",
    "Verif.Props.C88_remove_false"
   ],
   "note": "for callers that initialise first, start only what is stopped and stop before they clean; false otherwise"
  },
  {
   "property": "C89",
   "status": "partial",
   "theorems": [
    "Verif.Props.C89_inside_partial",
    "Verif.Props.C89_name_partial",
    "Verif.Props.C89_prefix_false"
   ],
   "note": "false: a URL shorter than the prefix is read behind its end"
  },
  {
   "property": "C90",
   "status": "partial",
   "theorems": [
    "Verif.Props.C90_closed_partial",
    "Verif.Props.C90_leak_false"
   ],
   "note": "false: a file that is not compressed is left open"
  },
  {
   "property": "C91",
   "status": "partial",
   "theorems": [
    "Verif.Props.C91_case_partial",
    "Verif.Props.C91_prefix_partial",
    "Verif.Props.C91_prefix_false",
    "Verif.Props.C91_overread_false"
   ],
   "note": "the case-insensitive function is exact; false for u_map_remove_from_value: prefix match and over-read"
  },
  {
   "property": "C92",
   "status": "partial",
   "theorems": [
    "Verif.Props.C92_accepted_partial",
    "Verif.Props.C92_unique",
    "Verif.Props.C92_port_false",
    "Verif.Props.C92_host_false"
   ],
   "note": "Every accepted text is its components rendered again, each ending at the first delimiter that can end it, which is the only way to split it. False for the port being a number (letters and signs are accepted) and for a host free of '@'."
  },
  {
   "property": "C93",
   "status": "partial",
   "theorems": [
    "Verif.Props.C93_response_partial",
    "Verif.Props.C93_trailer_false",
    "Verif.Props.C93_nul_false",
    "Verif.Props.C93_injection_false"
   ],
   "note": "Read back by a separate HTTP reader. False: CR LF behind the body, body cut at a NUL while the full length is announced, CR LF in a header value adds a field."
  },
  {
   "property": "C94",
   "status": "partial",
   "theorems": [
    "Verif.Props.C94_body_partial",
    "Verif.Props.C94_form_partial",
    "Verif.Props.C94_end_false",
    "Verif.Props.C94_blank_false",
    "Verif.Props.C94_path_false",
    "Verif.Props.C94_entry_false"
   ],
   "note": "Read back by a separate HTTP reader, parameters by the form decoder. False: no empty line at all without body and form (every request), blanks in the query, URL without path, form entries without value."
  },
  {
   "property": "C95",
   "status": "partial",
   "theorems": [
    "Verif.Props.C95_answer",
    "Verif.Props.C95_names_partial",
    "Verif.Props.C95_blank_false"
   ],
   "note": "the answer lists exactly the enabled extensions in offer order; false: a name offered behind \", \" is not recognised (the blank is kept in the item)"
  },
  {
   "property": "C96",
   "status": "partial",
   "theorems": [
    "Verif.Props.C96_every_item_partial",
    "Verif.Props.C96_unasked_false"
   ],
   "note": "false: a client without registered extensions takes any extension the server announces"
  },
  {
   "property": "C97",
   "status": "partial",
   "theorems": [
    "Verif.Props.C97_answer_partial",
    "Verif.Props.C24_chain_answer",
    "Verif.Props.C97_fallback_false"
   ],
   "note": "not covered: an unknown code returned by the default endpoint called as fallback sends nothing (C26_status_false); refused lines are C98"
  },
  {
   "property": "C98",
   "status": "partial",
   "theorems": [
    "Verif.Props.C98_refused_partial",
    "Verif.Props.C98_truncated_false"
   ],
   "note": "false: on a completed request a refused header is only logged; later headers and all cookies are missing, status and body are sent"
  },
  {
   "property": "C99",
   "status": "partial",
   "theorems": [
    "Verif.Props.C99_stream_partial",
    "Verif.Props.C99_fallback_false",
    "Verif.Props.C99_block_false"
   ],
   "note": "false when the default endpoint is called as fallback (the stream is ignored and the body is empty) and for blocks of size 0 (nothing is answered)"
  },
  {
   "property": "C100",
   "status": "partial",
   "theorems": [
    "Verif.Props.C100_upgrade_partial",
    "Verif.Props.C100_ignored_false"
   ],
   "note": "false when the endpoint returns IGNORE and a default endpoint exists: a plain response is sent with status 101"
  },
  {
   "property": "C101",
   "status": "partial",
   "theorems": [
    "Verif.Props.C101_defaults_partial",
    "Verif.Props.C101_errors_false"
   ],
   "note": "false for the answers the dispatcher builds itself (404, 500, refused handshake)"
  },
  {
   "property": "C102",
   "status": "partial",
   "theorems": [
    "Verif.Props.C102_round_trip_partial",
    "Verif.Props.C102_huge_false",
    "Verif.Props.storedZlib_lossless"
   ],
   "note": "every sequence of messages below 4 GiB; false from 4 GiB on: the length is cut to 32 bits, and exactly 4 GiB can read in front of the buffer"
  },
  {
   "property": "C103",
   "status": "partial",
   "theorems": [
    "Verif.Props.C103_readable_partial",
    "Verif.Props.C103_empty_false"
   ],
   "note": "every sequence of non-empty messages; false for an empty message: the payload is empty instead of 00, and the following message is swallowed"
  },
  {
   "property": "C104",
   "status": "partial",
   "theorems": [
    "Verif.Props.C104_receive_partial",
    "Verif.Props.C104_final_false"
   ],
   "note": "as the same zlib would deliver them one by one; false after a final block: every later message is delivered empty"
  },
  {
   "property": "C105",
   "status": "proved",
   "theorems": [
    "Verif.Props.C105_tls"
   ],
   "note": ""
  },
  {
   "property": "C106",
   "status": "partial",
   "theorems": [
    "Verif.Props.C106_request_partial",
    "Verif.Props.C106_head_false"
   ],
   "note": "false: HEAD is sent with CURLOPT_CUSTOMREQUEST only, libcurl waits for a body"
  },
  {
   "property": "C107",
   "status": "partial",
   "theorems": [
    "Verif.Props.C107_headers_partial",
    "Verif.Props.C107_blank_false",
    "Verif.Props.C107_injection_false",
    "Verif.Props.C107_duplicate_false"
   ],
   "note": "false: headers with empty value are not sent, CR LF adds headers, a form adds a second content type if the caller wrote it in another case"
  },
  {
   "property": "C108",
   "status": "partial",
   "theorems": [
    "Verif.Props.C108_cookies_partial",
    "Verif.Props.C108_lost_false",
    "Verif.Props.C108_injection_false",
    "Verif.Props.C108_null_false"
   ],
   "note": "false: a Cookie header suppresses all cookies, ';' in a value adds cookies, a NULL value is sent as \"name:\""
  },
  {
   "property": "C109",
   "status": "partial",
   "theorems": [
    "Verif.Props.C109_family_partial",
    "Verif.Props.C109_family_false",
    "Verif.Props.C109_sample_false"
   ],
   "note": "false for every request restricted to one family: the test network_type & U_USE_ALL holds for both"
  },
  {
   "property": "C110",
   "status": "partial",
   "theorems": [
    "Verif.Props.C110_response_partial",
    "Verif.Props.C110_stale_false",
    "Verif.Props.C110_redirect_false"
   ],
   "note": "false: an empty body leaves the old one in a reused response, headers of redirections are kept and merged"
  },
  {
   "property": "C111",
   "status": "partial",
   "theorems": [
    "Verif.Props.C111_errors_partial",
    "Verif.Props.C111_cookie_false",
    "Verif.Props.C111_sample_false"
   ],
   "note": "false: when libcurl refuses the cookies (longer than 8000000 bytes) freed memory is logged"
  },
  {
   "property": "C112",
   "status": "partial",
   "theorems": [
    "Verif.Props.C112_options_partial",
    "Verif.Props.C112_last_partial",
    "Verif.Props.C112_own_false",
    "Verif.Props.C112_append_false",
    "Verif.Props.C112_timeout_false"
   ],
   "note": "false: a text of the request itself is freed before it is read, NULL appended to the URL becomes \"(null)\", timeouts from 2^31 on are changed"
  },
  {
   "property": "C113",
   "status": "proved",
   "theorems": [
    "Verif.Props.C113_options"
   ],
   "note": ""
  },
  {
   "property": "C114",
   "status": "partial",
   "theorems": [
    "Verif.Props.C114_round_trip_partial",
    "Verif.Props.C114_spelling_false"
   ],
   "note": "false when the message has the header in another spelling: a second one is added and nothing is read back"
  },
  {
   "property": "C115",
   "status": "partial",
   "theorems": [
    "Verif.Props.C115_media_partial",
    "Verif.Props.C115_case_false",
    "Verif.Props.C115_other_false"
   ],
   "note": "false: Application/JSON is not read, application/json-seq is"
  },
  {
   "property": "C116",
   "status": "partial",
   "theorems": [
    "Verif.Props.C116_error_partial",
    "Verif.Props.C116_several_false",
    "Verif.Props.C116_response_false"
   ],
   "note": "false: with two content types column and text stay unwritten; responses never write it"
  },
  {
   "property": "C117",
   "status": "partial",
   "theorems": [
    "Verif.Props.C117_connection_partial",
    "Verif.Props.C117_documented_false",
    "Verif.Props.C117_unchecked_false",
    "Verif.Props.C117_user_false"
   ],
   "note": "false: the documented meaning of verify_certificate is inverted; a user without password is dropped"
  },
  {
   "property": "C118",
   "status": "proved",
   "theorems": [
    "Verif.Props.C118_recipients"
   ],
   "note": ""
  },
  {
   "property": "C119",
   "status": "partial",
   "theorems": [
    "Verif.Props.C119_result_partial",
    "Verif.Props.C119_subject_false",
    "Verif.Props.C119_type_false"
   ],
   "note": "false: subject and content type are documented as mandatory and not required; a missing type is sent as \"(null)\""
  },
  {
   "property": "C120",
   "status": "partial",
   "theorems": [
    "Verif.Props.C120_request_partial",
    "Verif.Props.C120_case_false",
    "Verif.Props.C120_injection_false",
    "Verif.Props.C120_params_false"
   ],
   "note": "false: names differing in case get the same value, line breaks add fields, URL parameters are not sent"
  },
  {
   "property": "C121",
   "status": "partial",
   "theorems": [
    "Verif.Props.C121_prepared_partial",
    "Verif.Props.C121_key",
    "Verif.Props.C121_spelling_false",
    "Verif.Props.C121_own_false"
   ],
   "note": "false: a header in another spelling is doubled and the server refuses; the URL the request already holds is freed before it is copied"
  },
  {
   "property": "C122",
   "status": "proved",
   "theorems": [
    "Verif.Props.C122_tls",
    "Verif.Props.C122_other"
   ],
   "note": "for calls that return; without handle or when no thread can be created the behaviour is undefined"
  },
  {
   "property": "C123",
   "status": "partial",
   "theorems": [
    "Verif.Props.C123_connect_partial",
    "Verif.Props.C123_port_false"
   ],
   "note": "false for ports from 2^16, cut to 16 bits"
  },
  {
   "property": "C124",
   "status": "partial",
   "theorems": [
    "Verif.Props.C124_credentials_partial",
    "Verif.Props.C124_basic_false",
    "Verif.Props.C124_request_false"
   ],
   "note": "false: the scheme sent is \"Basic:\", and the request of the caller is changed"
  },
  {
   "property": "C125",
   "status": "partial",
   "theorems": [
    "Verif.Props.C125_closed_partial",
    "Verif.Props.C125_resolve_false",
    "Verif.Props.C125_tls_false",
    "Verif.Props.C125_extension_false"
   ],
   "note": "false: the socket stays open when the name cannot be resolved, the TLS handshake fails or an extension is not accepted"
  },
  {
   "property": "C126",
   "status": "partial",
   "theorems": [
    "Verif.Props.C126_register_partial",
    "Verif.Props.C126_context_false"
   ],
   "note": "false: the context of a client extension without match function is never set"
  },
  {
   "property": "C127",
   "status": "partial",
   "theorems": [
    "Verif.Props.C127_onclose_partial",
    "Verif.Props.C127_messages",
    "Verif.Props.C127_response_false",
    "Verif.Props.C127_lost_false",
    "Verif.Props.C127_thread_false",
    "Verif.Props.C127_status_false"
   ],
   "note": "false when libmicrohttpd gives no upgrade response or loses the connection; undefined when no thread can be created"
  },
  {
   "property": "C128",
   "status": "partial",
   "theorems": [
    "Verif.Props.C128_memory_partial",
    "Verif.Props.C128_copy_false",
    "Verif.Props.C128_import_false",
    "Verif.Props.C128_twice_false",
    "Verif.Props.C128_into_false",
    "Verif.Props.C128_init_false"
   ],
   "note": "false: copying a request with client certificate or importing a second one leaks; cleaning twice frees twice; a failing allocation in ulfius_init_request leads to free of unset pointers"
  },
  {
   "property": "C129",
   "status": "partial",
   "theorems": [
    "Verif.Props.C129_memory_partial",
    "Verif.Props.C129_cookie_false",
    "Verif.Props.C129_fetch_false",
    "Verif.Props.C129_into_false",
    "Verif.Props.C129_twice_false"
   ],
   "note": "false: copying a response with a cookie that lacks an attribute leads to a double free; receiving two answers into one response, or copying into a used one, leaks; cleaning twice frees twice"
  },
  {
   "property": "C130",
   "status": "partial",
   "theorems": [
    "Verif.Props.C130_memory_partial",
    "Verif.Props.C130_certificate_false",
    "Verif.Props.C130_answer_false",
    "Verif.Props.C130_refused_false",
    "Verif.Props.C130_default_false",
    "Verif.Props.C130_parameter_false"
   ],
   "note": "false: a client certificate that cannot be imported is freed twice; leaks when libmicrohttpd makes no answer, when a refusal with body has a field that is not taken, when the default endpoint returns an unknown value, and for parameters without name. Websockets are in C137"
  },
  {
   "property": "C131",
   "status": "partial",
   "theorems": [
    "Verif.Props.C131_compression_partial",
    "Verif.Props.C131_encoded_false",
    "Verif.Props.C131_long_false"
   ],
   "note": "false for responses that have a Content-Encoding already (compressed again, the header names the coding once) and for bodies of 4 GiB or more (the length is cast to 32 bits)"
  },
  {
   "property": "C132",
   "status": "partial",
   "theorems": [
    "Verif.Props.C132_oauth2_partial",
    "Verif.Props.C132_oidc_partial",
    "Verif.Props.C132_scope_false"
   ],
   "note": "false when the list of required scopes has additional spaces: the empty word then counts as a scope"
  },
  {
   "property": "C133",
   "status": "partial",
   "theorems": [
    "Verif.Props.C133_oauth2_partial",
    "Verif.Props.C133_oidc_partial",
    "Verif.Props.C133_client_false",
    "Verif.Props.C133_scopeless_false",
    "Verif.Props.C133_overflow_false",
    "Verif.Props.C133_scheme_false"
   ],
   "note": "false for tokens of clients (answered with an error), tokens without scopes, times beyond 64 bits, the scheme in lower case"
  },
  {
   "property": "C134",
   "status": "partial",
   "theorems": [
    "Verif.Props.C134_oauth2_partial",
    "Verif.Props.C134_oidc_partial",
    "Verif.Props.C134_iddawc_partial",
    "Verif.Props.C134_expired_false",
    "Verif.Props.C134_missing_false",
    "Verif.Props.C134_realm_false",
    "Verif.Props.C134_silent_false"
   ],
   "note": "false for the codes of expired and missing tokens, realms that are not words, and tokens with a missing or superfluous proof (no challenge)"
  },
  {
   "property": "C135",
   "status": "partial",
   "theorems": [
    "Verif.Props.C135_iddawc_partial",
    "Verif.Props.C135_spelling_false"
   ],
   "note": "missing: lists of required scopes with additional spaces; false for forms whose header Content-Type is spelled differently"
  },
  {
   "property": "C136",
   "status": "partial",
   "theorems": [
    "Verif.Props.C136_proof_partial",
    "Verif.Props.C136_many_false",
    "Verif.Props.C136_age_false"
   ],
   "note": "false for several headers DPoP (the first counts) and for limits beyond the range of times"
  },
  {
   "property": "C137",
   "status": "partial",
   "theorems": [
    "Verif.Props.C137_memory_partial",
    "Verif.Props.C137_bits_false",
    "Verif.Props.C137_protocol_false",
    "Verif.Props.C137_answer_false",
    "Verif.Props.C137_field_false",
    "Verif.Props.C137_queue_false",
    "Verif.Props.C137_ignore_false",
    "Verif.Props.C137_certificate_false",
    "Verif.Props.C137_list_false"
   ],
   "note": "false: leaks for extensions with the same bit, for protocols not agreed upon after an extension was, when libmicrohttpd makes or queues no answer, when the callback returns U_CALLBACK_IGNORE, for client certificates; use of freed memory when libmicrohttpd refuses a field, and of no memory when the program clears a list of messages. Contexts without function to free them are the program's"
  },
  {
   "property": "C138",
   "status": "partial",
   "theorems": [
    "Verif.Props.C138_whole",
    "Verif.Props.C138_serial_partial",
    "Verif.Props.C138_returns_partial",
    "Verif.Props.C138_delivered_partial",
    "Verif.Props.C138_race_false",
    "Verif.Props.C138_order_false",
    "Verif.Props.C138_close_false"
   ],
   "note": "messages are whole for all threads, extensions and sockets; as if by one thread only if no extension has a context (data race; messages out of order) and nobody sends a close frame (data may follow it)"
  },
  {
   "property": "C139",
   "status": "partial",
   "theorems": [
    "Verif.Props.C139_snapshot_partial",
    "Verif.Props.C139_answered_partial",
    "Verif.Props.C139_memory_partial",
    "Verif.Props.C139_moved_false",
    "Verif.Props.C139_removed_false",
    "Verif.Props.C139_both_false",
    "Verif.Props.C139_empty_false"
   ],
   "note": "as long as no request goes through the list while it changes and changes come one at a time (nothing is locked: undefined behaviour otherwise), and the empty endpoint is not added"
  },
  {
   "property": "C140",
   "status": "partial",
   "theorems": [
    "Verif.Props.C140_memory_partial",
    "Verif.Props.C140_header_false",
    "Verif.Props.C140_cookie_false",
    "Verif.Props.C140_value_false",
    "Verif.Props.C140_again_false",
    "Verif.Props.C140_certificate_false",
    "Verif.Props.C140_mail_false"
   ],
   "note": "for requests without client certificate, answers with body into responses without one, cookie lists whose lines do not get shorter, and libcurl refusing neither cookies nor a list element after the first; false otherwise (leaks, use after free)"
  },
  {
   "property": "C141",
   "status": "partial",
   "theorems": [
    "Verif.Props.C141_round_trip_partial",
    "Verif.Props.C141_refused",
    "Verif.Props.C141_scalar_false"
   ],
   "note": "for objects and arrays below 4 GiB; strings, numbers, true, false and null are sent as an empty message with U_OK (C141_scalar_false)"
  },
  {
   "property": "C142",
   "status": "partial",
   "theorems": [
    "Verif.Props.C142_typed_partial",
    "Verif.Props.C142_long_false",
    "Verif.Props.C142_last_false",
    "Verif.Props.C142_quit_false",
    "Verif.Props.C142_nul_false",
    "Verif.Props.C142_end_false",
    "Verif.Props.C142_fragment_false"
   ],
   "note": "for lines of at most 254 bytes without NUL that do not begin with !q, up to the end of the input; false otherwise, and -f has no effect"
  },
  {
   "property": "C143",
   "status": "partial",
   "theorems": [
    "Verif.Props.C143_shown_partial",
    "Verif.Props.C143_huge_false",
    "Verif.Props.C143_nul_false"
   ],
   "note": "for text messages below 2 GiB without NUL; longer ones are read beyond their end, a NUL cuts them"
  },
  {
   "property": "C144",
   "status": "proved",
   "theorems": [
    "Verif.Props.C144_list",
    "Verif.Props.C144_add_by_val",
    "Verif.Props.C144_remove_by_val",
    "Verif.Props.C144_remove_params"
   ],
   "note": ""
  },
  {
   "property": "C145",
   "status": "partial",
   "theorems": [
    "Verif.Props.C145_logged_partial",
    "Verif.Props.C145_percent_false"
   ],
   "note": "false for messages with a percent sign once formatted: they are used as a format again (undefined behaviour); proved for all others"
  },
  {
   "property": "C146",
   "status": "partial",
   "theorems": [
    "Verif.Props.C146_options_partial",
    "Verif.Props.C146_refused",
    "Verif.Props.C146_extension_false",
    "Verif.Props.C146_cluster_false"
   ],
   "note": "false for -e with its value as the next argument and for several letters behind one dash; proved for all other ways"
  },
  {
   "property": "C147",
   "status": "partial",
   "theorems": [
    "Verif.Props.C147_url_partial",
    "Verif.Props.C147_value_partial",
    "Verif.Props.C147_form_partial",
    "Verif.Props.C147_question_false",
    "Verif.Props.C147_part_false"
   ],
   "note": "false for URLs that end in a question mark or contain a fragment, and for characters cut by parts when UTF-8 is checked; proved for all others"
  },
  {
   "property": "C148",
   "status": "partial",
   "theorems": [
    "Verif.Props.C148_files_partial",
    "Verif.Props.C148_set",
    "Verif.Props.C148_nameless_false",
    "Verif.Props.C148_body_false"
   ],
   "note": "false behind a field without a name, and the files stay in binary_body although the documentation says they do not; the rest is proved"
  },
  {
   "property": "C149",
   "status": "partial",
   "theorems": [
    "Verif.Props.C149_opens_partial",
    "Verif.Props.C149_extensions",
    "Verif.Props.C149_blank_false"
   ],
   "note": "false for the sub-protocol and extensions held afterwards: the client has them with a blank in front, the server has none; the rest is proved"
  },
  {
   "property": "C150",
   "status": "partial",
   "theorems": [
    "Verif.Props.C150_arrives_partial",
    "Verif.Props.C150_value",
    "Verif.Props.C150_blank_false"
   ],
   "note": "false for header values with blanks around them, which the client does not see; the rest is proved for responses that are neither streams nor websockets"
  },
  {
   "property": "C151",
   "status": "partial",
   "theorems": [
    "Verif.Props.C151_headers_partial",
    "Verif.Props.C151_cookies_partial",
    "Verif.Props.C151_case_false"
   ],
   "note": "false: values of one header are not joined when its name is written in different cases; empty headers, CR LF, and cookies beside a Cookie header as in C107 and C108; the rest is proved"
  },
  {
   "property": "C152",
   "status": "partial",
   "theorems": [
    "Verif.Props.C152_frames",
    "Verif.Props.C152_effects",
    "Verif.Props.C152_messages_partial",
    "Verif.Props.C152_fragment_false"
   ],
   "note": "frames are read whole (the read lock); false for messages in fragments: a closing thread drops fragments the other one is waiting for"
  },
  {
   "property": "C153",
   "status": "partial",
   "theorems": [
    "Verif.Props.C153_queue_partial",
    "Verif.Props.C153_lost_false",
    "Verif.Props.C153_stray_false",
    "Verif.Props.C153_pop_false"
   ],
   "note": "false: the lists have no lock; holds for every interleaving in which no two calls overlap"
  },
  {
   "property": "C154",
   "status": "partial",
   "theorems": [
    "Verif.Props.C154_v4_partial",
    "Verif.Props.C154_shown_partial",
    "Verif.Props.C154_v6_false",
    "Verif.Props.C154_same_false",
    "Verif.Props.C154_mapped_false",
    "Verif.Props.C154_forwarded_false",
    "Verif.Props.C154_flow_false"
   ],
   "note": "true for IPv4; false for every IPv6 client: only 16 of the 28 bytes are kept"
  },
  {
   "property": "C155",
   "status": "partial",
   "theorems": [
    "Verif.Props.C155_credentials_partial",
    "Verif.Props.C155_colon_false",
    "Verif.Props.C155_websocket_false",
    "Verif.Props.C155_example"
   ],
   "note": "true for names without colon sent by the HTTP client; false for names with colon and for websockets"
  },
  {
   "property": "C156",
   "status": "partial",
   "theorems": [
    "Verif.Props.C156_request_partial",
    "Verif.Props.C156_response_partial",
    "Verif.Props.C156_limit_false",
    "Verif.Props.C156_form_false"
   ],
   "note": "at the level of the text made of the value; false above max_post_body_size and with form parameters"
  },
  {
   "property": "C157",
   "status": "partial",
   "theorems": [
    "Verif.Props.C157_file_partial",
    "Verif.Props.C157_missing_partial",
    "Verif.Props.C157_encoded_false",
    "Verif.Props.C157_directory_false",
    "Verif.Props.C157_forbidden_false"
   ],
   "note": "true for files that may be read and whose names a URL can hold as they are; false for names with escapes, directories, and files that may not be read"
  },
  {
   "property": "C158",
   "status": "partial",
   "theorems": [
    "Verif.Props.C158_page_partial",
    "Verif.Props.C158_arrives_partial",
    "Verif.Props.C158_missing_partial",
    "Verif.Props.C158_stale_false",
    "Verif.Props.C158_directory_false",
    "Verif.Props.C158_growth_false",
    "Verif.Props.C158_long_false"
   ],
   "note": "true for regular files below 4 GiB that do not change; the cache is never refreshed and never bounded"
  },
  {
   "property": "C159",
   "status": "partial",
   "theorems": [
    "Verif.Props.C159_answers_partial",
    "Verif.Props.C159_apart_partial",
    "Verif.Props.C159_warm_partial",
    "Verif.Props.C159_empty_false",
    "Verif.Props.C159_stray_false"
   ],
   "note": "true when no look-up overlaps a change of the cache, and for files already cached; the look-up is outside the lock, so a request can get an empty body or read an unwritten pointer"
  },
  {
   "property": "C160",
   "status": "partial",
   "theorems": [
    "Verif.Props.C160_request_partial",
    "Verif.Props.C160_answer_partial",
    "Verif.Props.C160_unreachable_false",
    "Verif.Props.C160_query_false",
    "Verif.Props.C160_host_false",
    "Verif.Props.C160_coding_false",
    "Verif.Props.C160_cookie_false",
    "Verif.Props.C160_length_false"
   ],
   "note": "true for URLs without parameters and answers without cookies and codings; parameters are sent twice, cookies set twice, decoded bodies announced as coded, and an unreachable origin is answered 200"
  },
  {
   "property": "C161",
   "status": "partial",
   "theorems": [
    "Verif.Props.C161_program_partial",
    "Verif.Props.C161_stream_false"
   ],
   "note": "true unless a body is given after a stream: the stream is then sent with the status of the body"
  },
  {
   "property": "C162",
   "status": "partial",
   "theorems": [
    "Verif.Props.C162_messages",
    "Verif.Props.C162_reason",
    "Verif.Props.C162_answered",
    "Verif.Props.C162_delivered",
    "Verif.Props.C162_deadline",
    "Verif.Props.C162_follows",
    "Verif.Props.C162_slow_false",
    "Verif.Props.C162_closer_false"
   ],
   "note": "in order, unchanged, once, both ends end, and all messages if the peer answers the close; false: messages are lost when the answer takes more than 11 polls, and those sent to the end that closes"
  },
  {
   "property": "C163",
   "status": "partial",
   "theorems": [
    "Verif.Props.C163_replies",
    "Verif.Props.C163_all",
    "Verif.Props.C163_before",
    "Verif.Props.C163_echo",
    "Verif.Props.C163_closed_false"
   ],
   "note": "false for a peer that asks for the close itself: it drops the answers that arrive while it waits for the close frame; the rest is proved"
  },
  {
   "property": "C164",
   "status": "proved",
   "theorems": [
    "Verif.Props.C164_transparent",
    "Verif.Props.C164_messages",
    "Verif.Props.C164_delivered",
    "Verif.Props.C164_ends"
   ],
   "note": "for every zlib that is lossless up to a size (hypothesis Lossless); sends of one end do not overlap (C138 has what happens then)"
  },
  {
   "property": "C165",
   "status": "partial",
   "theorems": [
    "Verif.Props.C165_freed_partial",
    "Verif.Props.C165_never_early_partial",
    "Verif.Props.C165_read_partial",
    "Verif.Props.C165_option_false",
    "Verif.Props.C165_again_false",
    "Verif.Props.C165_unknown_false"
   ],
   "note": "true for programs that only use ulfius_set_response_shared_data when there is an answer; false for U_OPT_SHARED_DATA, data set again, and a default endpoint with an unknown return code"
  },
  {
   "property": "C166",
   "status": "partial",
   "theorems": [
    "Verif.Props.C166_shown_partial",
    "Verif.Props.C166_freed_partial",
    "Verif.Props.C166_example_partial",
    "Verif.Props.C166_import_false",
    "Verif.Props.C166_leak_false",
    "Verif.Props.C166_replace_false",
    "Verif.Props.C166_empty_false"
   ],
   "note": "true of certificates that can be read, and of requests that come and go; false when the import of a verified certificate fails (stale pointer), duplicates and replaced certificates leak an object, a refused text leaves an empty certificate"
  },
  {
   "property": "C167",
   "status": "partial",
   "theorems": [
    "Verif.Props.C167_back_partial",
    "Verif.Props.C167_counts_partial",
    "Verif.Props.C167_overflow_false",
    "Verif.Props.C167_empty_false"
   ],
   "note": "true of cookies with values, and of 2^31 visits; an empty value is undefined behaviour at the client, and the number 2147483647 in the cookie of a client is undefined behaviour at the server of the example"
  },
  {
   "property": "C168",
   "status": "partial",
   "theorems": [
    "Verif.Props.C168_counts_partial",
    "Verif.Props.C168_calls_partial",
    "Verif.Props.C168_race_partial",
    "Verif.Props.C168_alone_partial",
    "Verif.Props.C168_lost_false",
    "Verif.Props.C168_other_false",
    "Verif.Props.C168_overflow_false"
   ],
   "note": "true of requests one after the other; at the same time requests get lost and clients are told the numbers of others; the largest number makes the next request undefined behaviour"
  },
  {
   "property": "C169",
   "status": "partial",
   "theorems": [
    "Verif.Props.C169_guard_partial",
    "Verif.Props.C169_refusal_partial",
    "Verif.Props.C169_example_partial",
    "Verif.Props.C169_equal_false",
    "Verif.Props.C169_stream_false",
    "Verif.Props.C169_methods_false"
   ],
   "note": "true of guards with a smaller priority number; false with the same number (the order is unspecified); the example checks GET and PUT only and gives its data to every other method"
  },
  {
   "property": "C170",
   "status": "proved",
   "theorems": [
    "Verif.Props.C170_levels",
    "Verif.Props.C170_other",
    "Verif.Props.C170_nothing"
   ],
   "note": "for a libmicrohttpd that takes the default header"
  },
  {
   "property": "C171",
   "status": "partial",
   "theorems": [
    "Verif.Props.C171_list_partial",
    "Verif.Props.C171_one",
    "Verif.Props.C171_page_partial",
    "Verif.Props.C171_else",
    "Verif.Props.C171_forged_false",
    "Verif.Props.C171_absent_false",
    "Verif.Props.C171_large_false"
   ],
   "note": "texts below 2 GiB, where the code is right; a value with a line break imitates another entry, a missing value looks like (null), 2 GiB overflow the int that holds the length"
  },
  {
   "property": "C172",
   "status": "partial",
   "theorems": [
    "Verif.Props.C172_stream",
    "Verif.Props.C172_text_partial",
    "Verif.Props.C172_audio_partial",
    "Verif.Props.C172_file_partial",
    "Verif.Props.C172_missing",
    "Verif.Props.C172_else",
    "Verif.Props.C172_buffer_false",
    "Verif.Props.C172_stuck_false",
    "Verif.Props.C172_changed_false",
    "Verif.Props.C172_shrunk_false",
    "Verif.Props.C172_directory_false"
   ],
   "note": "buffers of at least 17 bytes and files whose first bytes stay the same; with small buffers another text or no end, a file that is rewritten arrives mixed, one that is emptied never, a directory is answered 200 and empty because U_ERROR has the value of U_CALLBACK_IGNORE"
  },
  {
   "property": "C173",
   "status": "partial",
   "theorems": [
    "Verif.Props.C173_signal_partial",
    "Verif.Props.C173_returned_partial",
    "Verif.Props.C173_lost_partial",
    "Verif.Props.C173_talking_partial",
    "Verif.Props.C173_once",
    "Verif.Props.handleFlags_handle",
    "Verif.Props.reads_readMessage",
    "Verif.Props.C173_silent_false",
    "Verif.Props.C173_fragment_false"
   ],
   "note": "every fair execution ends or is one of two cases, both possible: a peer that sends part of a frame and falls silent holds the thread in the read, where the close flag is not looked at; a final frame inside a fragmented message ends the loop but leaves the status OPEN, so that a waiting manager callback and the thread that joins it wait forever"
  },
  {
   "property": "C174",
   "status": "partial",
   "theorems": [
    "Verif.Props.C174_lost_partial",
    "Verif.Props.C174_answer_partial",
    "Verif.Props.C174_silent_false",
    "Verif.Props.C174_errors_false",
    "Verif.Props.C174_endless_false",
    "Verif.Props.C174_refusal_false"
   ],
   "note": "a complete answer or a lost connection ends the reading, with the same result as the model used elsewhere; there is no limit on time or number of lines, a failed read is taken for silence, and POLLRDHUP hides an answer that is there to be read"
  },
  {
   "property": "C175",
   "status": "proved",
   "theorems": [
    "Verif.Props.C175_add",
    "Verif.Props.C175_remove",
    "Verif.Props.C175_back",
    "Verif.Props.C175_example",
    "Verif.Props.C175_example_else",
    "Verif.Props.C175_twin_false"
   ],
   "note": "changes and requests come one after the other (C139 is about changes while a request is served); an endpoint with the method, prefix and format of another one takes that one with it when it is removed (C175_twin_false)"
  },
  {
   "property": "C176",
   "status": "partial",
   "theorems": [
    "Verif.Props.C176_default",
    "Verif.Props.C176_own_partial",
    "Verif.Props.C176_credentials_false",
    "Verif.Props.C176_form_false",
    "Verif.Props.C176_json_false",
    "Verif.Props.C176_old_false",
    "Verif.Props.C176_curl_false",
    "Verif.Props.C176_close_false"
   ],
   "note": "true of every program that keeps malloc and of programs with functions of their own outside five cases: credentials sent by a client and the parameters of a form are released by the wrong function, JSON after ulfius_start_framework_with_mhd_options too, mhd_response_copy_data has no effect with libmicrohttpd before 0.9.61, and curl never gets the functions because it is initialised before"
  },
  {
   "property": "C177",
   "status": "partial",
   "theorems": [
    "Verif.Props.C177_partial",
    "Verif.Props.C177_unharmed_partial",
    "Verif.Props.C177_others_false",
    "Verif.Props.C177_map_false",
    "Verif.Props.C177_forgotten_false",
    "Verif.Props.C177_response_false",
    "Verif.Props.C177_answer_false",
    "Verif.Props.C177_damage_false"
   ],
   "note": "true of every program as long as memory runs out only at the places the code deals with; at each of the other places where it can run out there is a program that goes wrong (one theorem over all of them): a map that could not be enlarged crashes when it is cleaned or read, or takes entries without storing them, a text body or a replaced cookie that could not be copied crashes later, ulfius_init_response loses blocks, and some calls answer U_OK"
  },
  {
   "property": "C178",
   "status": "partial",
   "theorems": [
    "Verif.Props.C178_partial",
    "Verif.Props.C178_method_partial",
    "Verif.Props.C178_url_partial",
    "Verif.Props.C178_prefix_partial",
    "Verif.Props.C178_guard_false",
    "Verif.Props.C178_url_false",
    "Verif.Props.C178_crash_false",
    "Verif.Props.C178_default_false",
    "Verif.Props.C178_parameter_false"
   ],
   "note": "whatever fails, the method, the order, the callback and its user data are right; the URL is right unless a word cannot be copied or the array for the words of an endpoint cannot grow; everything is right if only the allocations for the default endpoint fail or, without a default endpoint, those of the array for the words of the URL. Elsewhere it is false: a guard is left out, an endpoint is called for a URL it does not match, the default endpoint is called instead, a parameter has the wrong value, or NULL or unwritten memory is read"
  },
  {
   "property": "C179",
   "status": "partial",
   "theorems": [
    "Verif.Props.C179_partial",
    "Verif.Props.C179_whole_partial",
    "Verif.Props.C179_missing_false",
    "Verif.Props.C179_joined_false",
    "Verif.Props.C179_crash_false"
   ],
   "note": "the body is whole or the connection is refused, whatever fails; the maps are right up to the first failure if only the copy of a new name or of its value fails. It is false that nothing is missing: the callbacks are called although headers were lost, a header that comes twice can lose both values, and a map whose arrays cannot grow is read through NULL or freed memory. Forms are not covered"
  },
  {
   "property": "C180",
   "status": "partial",
   "theorems": [
    "Verif.Props.C180_partial",
    "Verif.Props.C180_forged_false",
    "Verif.Props.C180_binary_false"
   ],
   "note": "holds unless an earlier part bears the name under which the file name is noted, or no block of the file can be read. False otherwise: an earlier field doc_filename is taken for the name of the file doc, and with check_utf8 on a binary file leaves no trace"
  },
  {
   "property": "C181",
   "status": "partial",
   "theorems": [
    "Verif.Props.C181_partial",
    "Verif.Props.C181_unharmed_partial",
    "Verif.Props.C181_others_false",
    "Verif.Props.C181_init_false",
    "Verif.Props.C181_map_false",
    "Verif.Props.C181_body_false",
    "Verif.Props.C181_duplicate_false",
    "Verif.Props.C181_connection_false"
   ],
   "note": "holds at the places whose failure the code looks at; at each of the 29 others a program goes wrong: init_request frees fields never written, uninitialised maps, stale body lengths, texts missing in duplicates, arrays lost with a connection"
  },
  {
   "property": "C182",
   "status": "partial",
   "theorems": [
    "Verif.Props.C182_partial",
    "Verif.Props.C182_others_false",
    "Verif.Props.C182_refused_false",
    "Verif.Props.C182_end_false",
    "Verif.Props.C182_changed_false",
    "Verif.Props.C182_lost_false",
    "Verif.Props.C182_wrong_false",
    "Verif.Props.C182_init_false"
   ],
   "note": "holds at the places whose failure the code deals with; at each of the 13 others a program goes wrong: a refused endpoint stays in the list without an end behind it, an endpoint becomes the end or another one with U_OK, the list is lost, another endpoint is removed, realm and default headers go missing"
  },
  {
   "property": "C183",
   "status": "partial",
   "theorems": [
    "Verif.Props.C183_partial",
    "Verif.Props.C183_others_false",
    "Verif.Props.C183_null_false",
    "Verif.Props.C183_list_false",
    "Verif.Props.C183_sent_false",
    "Verif.Props.C183_fragment_false"
   ],
   "note": "holds at the places whose failure the code deals with; at each of the others a connection goes wrong: frames read through NULL, lists lost with their length kept, U_OK for messages not sent, data of fragments lost"
  },
  {
   "property": "C184",
   "status": "partial",
   "theorems": [
    "Verif.Props.C184_partial",
    "Verif.Props.C184_streaming_partial",
    "Verif.Props.C184_enough",
    "Verif.Props.C184_others_false",
    "Verif.Props.C184_credentials_false",
    "Verif.Props.C184_verb_false",
    "Verif.Props.C184_form_false",
    "Verif.Props.C184_header_false",
    "Verif.Props.C184_response_false"
   ],
   "note": "holds for failures at the 14 places the code looks at or does not use; at each of the 20 others one failure is enough: credentials, verb, proxy, parameters, headers or cookies are lost and U_OK is answered, or NULL is given to libcurl"
  },
  {
   "property": "C185",
   "status": "partial",
   "theorems": [
    "Verif.Props.C185_partial",
    "Verif.Props.C185_enough",
    "Verif.Props.C185_envelope",
    "Verif.Props.C185_text_false"
   ],
   "note": "holds unless the line with the copies cannot be allocated; then (null) is sent in front of the subject line, which is lost, and U_OK is answered. Recipients, sender, connection and credentials are right whatever fails (C185_envelope)"
  },
  {
   "property": "C186",
   "status": "partial",
   "theorems": [
    "Verif.Props.C186_partial",
    "Verif.Props.C186_enough",
    "Verif.Props.C186_cut_false",
    "Verif.Props.C186_value_false",
    "Verif.Props.C186_name_false",
    "Verif.Props.C186_array_false"
   ],
   "note": "unless an array of the map fails to grow, all values are those of the form up to the block for which memory ran out, and with memory enough the map holds exactly the form; false: MHD_post_process is not looked at, so the endpoints are called with the form cut there, a value already received can be lost, a file name missing, and a failing array is undefined behaviour"
  },
  {
   "property": "C187",
   "status": "partial",
   "theorems": [
    "Verif.Props.C187_stop_partial",
    "Verif.Props.C187_defined",
    "Verif.Props.C187_stop_false",
    "Verif.Props.C187_wait_false",
    "Verif.Props.C187_first_false",
    "Verif.Props.C187_code_false"
   ],
   "note": "true as long as memory runs out only where no other websocket is known, but for the websocket it ran out for, which is not told to close and not waited for; false otherwise: the pointer to the table is lost while its count stays, so that stopping is undefined behaviour, or never comes to an end"
  },
  {
   "property": "C188",
   "status": "partial",
   "theorems": [
    "Verif.Props.C188_freed_partial",
    "Verif.Props.C188_default_partial",
    "Verif.Props.C188_never_twice",
    "Verif.Props.C188_sent",
    "Verif.Props.C188_replaced_false",
    "Verif.Props.C188_fallback_false",
    "Verif.Props.C188_ignored_false",
    "Verif.Props.C188_block_false"
   ],
   "note": "false for a second stream in one request, for a default endpoint that streams when called as a fallback or that returns IGNORE, and for blocks of size 0"
  },
  {
   "property": "C189",
   "status": "partial",
   "theorems": [
    "Verif.Props.C189_shown",
    "Verif.Props.C189_careful_partial",
    "Verif.Props.C189_free_false",
    "Verif.Props.C189_copy_false",
    "Verif.Props.C189_stale_false"
   ],
   "note": "The two lists show the ideal map after every history, and a program that reads a list only while the map keeps it and frees none sees what the header says. False otherwise: the lists are the arrays of the map, so every program that frees a list with u_map_clean_enum as documented ends in undefined behaviour, a list of values shows later values, a list is freed memory once a key is added or removed."
  },
  {
   "property": "C190",
   "status": "partial",
   "theorems": [
    "Verif.Props.C190_refused_or_same_partial",
    "Verif.Props.C190_never_more",
    "Verif.Props.C190_enough",
    "Verif.Props.C190_websocket_false",
    "Verif.Props.C190_lists_false",
    "Verif.Props.C190_response_false",
    "Verif.Props.C190_status_false",
    "Verif.Props.C190_accept_false",
    "Verif.Props.C190_extension_false",
    "Verif.Props.C190_offer_false",
    "Verif.Props.C190_list_false",
    "Verif.Props.C190_protocol_false"
   ],
   "note": "Proved for failures of the manager, the outgoing list, the splits of the lists that must match, the digest, the copy of the request, the error bodies and the headers; no websocket is ever opened for a request that would be refused. False where the websocket itself (with an onclose callback) or the incoming list cannot be allocated (undefined behaviour), where libmicrohttpd has no response for the upgrade (leak, no onclose), and where the memory for a name, a field or a piece is missing (the answer differs; an extension can be in use without being announced)."
  },
  {
   "property": "C191",
   "status": "partial",
   "theorems": [
    "Verif.Props.C191_answer_partial",
    "Verif.Props.C191_enough",
    "Verif.Props.C191_freed",
    "Verif.Props.C191_defaults_false",
    "Verif.Props.C191_line_false",
    "Verif.Props.C191_unauthorized_false",
    "Verif.Props.C191_refusal_line_false",
    "Verif.Props.C191_fallback_false",
    "Verif.Props.C191_leak_false"
   ],
   "note": "Proved for every failure except these, for which it is false: no copy of the default headers (a 200 without any header or cookie), a line libmicrohttpd does not take (the line and those behind it are left out), no copy of the body of a refusal (a 401 with another page), no copy of a body before the default endpoint is asked (it finds the error in the response). A response nothing is queued for is not freed."
  },
  {
   "property": "C192",
   "status": "partial",
   "theorems": [
    "Verif.Props.C192_same_or_error_partial",
    "Verif.Props.C192_agreed",
    "Verif.Props.C192_enough",
    "Verif.Props.C192_credentials_false",
    "Verif.Props.C192_line_false",
    "Verif.Props.C192_protocol_false",
    "Verif.Props.C192_extension_false",
    "Verif.Props.C192_request_false",
    "Verif.Props.C192_response_false",
    "Verif.Props.C192_lists_false"
   ],
   "note": "Proved for failures of the copy of the URL, the websocket, its manager, the list of outgoing messages and the pieces of the status line and of the extensions; whatever fails, the sub-protocol and the extensions in use are named by the reply (or none). False elsewhere: credentials and lines of the request are left out silently, the sub-protocol and the extensions agreed to are forgotten, the callbacks get a NULL request, and a map that cannot grow or a missing list of incoming messages ends in undefined behaviour."
  },
  {
   "property": "C193",
   "status": "partial",
   "theorems": [
    "Verif.Props.C193_lost_alone_partial",
    "Verif.Props.C193_history_false",
    "Verif.Props.C193_pending_false",
    "Verif.Props.C193_empty_false"
   ],
   "note": "Proved for failures before the message is given to zlib, and for those behind it when the stream is flushed completely after each message (no context takeover); messages below 4 GiB. False otherwise: the receiver reads a later message as another one (history), reads the rest of a lost message in front of the next one (a buffer that cannot grow), and an empty message whose frame cannot be built is not sent although the call returns U_OK."
  },
  {
   "property": "C194",
   "status": "partial",
   "theorems": [
    "Verif.Props.C194_until",
    "Verif.Props.C194_freed_partial",
    "Verif.Props.C194_leak_false"
   ],
   "note": "The messages: proved without restriction (messages below 4 GiB, as in C102). The memory: nothing is lost unless a buffer cannot be made larger; then the buffer there was is not freed (C194_leak_false)."
  },
  {
   "property": "C195",
   "status": "partial",
   "theorems": [
    "Verif.Props.C195_types_partial",
    "Verif.Props.C195_copy_false",
    "Verif.Props.C195_array_false",
    "Verif.Props.C195_unwritten_false"
   ],
   "note": "Proved when memory runs out for the array only before the first type is in it and never for the copy of a type. False otherwise: a type that cannot be copied hides all later ones with U_OK; an array that cannot grow is lost with its types, and adding a type after that makes the callback and the cleaning read pointers never written."
  },
  {
   "property": "C196",
   "status": "partial",
   "theorems": [
    "Verif.Props.C196_setup_partial",
    "Verif.Props.C196_audience_false",
    "Verif.Props.C196_scope_false",
    "Verif.Props.C196_root_false"
   ],
   "note": "Proved for failures of everything but the copies of the audience, the scopes and the root of the URLs. False for these: the setup answers I_TOKEN_OK, and tokens for any audience or of any scope are let through, or proofs for the wrong URL."
  },
  {
   "property": "C197",
   "status": "partial",
   "theorems": [
    "Verif.Props.C197_server_partial",
    "Verif.Props.C197_client_partial",
    "Verif.Props.C197_leak_false",
    "Verif.Props.C197_zlib_false",
    "Verif.Props.C197_answer_false"
   ],
   "note": "Proved for offers in which each server_max_window_bits has one value, when zlib gets its first blocks; an answer that could not be written is never taken for another offer of the extension. False: server_max_window_bits without a value loses memory at each handshake, without any failure; deflateEnd and inflateEnd are called for streams without a state; without memory for the answer the server uses an extension it does not announce."
  },
  {
   "property": "C198",
   "status": "partial",
   "theorems": [
    "Verif.Props.C198_server_partial",
    "Verif.Props.C198_client_partial",
    "Verif.Props.C198_twice_false",
    "Verif.Props.C198_forgets_false",
    "Verif.Props.C198_name_false",
    "Verif.Props.C198_leak_false",
    "Verif.Props.C198_client_false",
    "Verif.Props.C198_context_false"
   ],
   "note": "Proved for sequences of calls in which fail the blocks of extensions, of the websocket of a client, and the protocol while there is none. False: without memory for the extensions the protocol is freed twice; a failed second call leaves the callbacks of the first without a protocol; an extension without its name is registered; one that cannot be appended stays allocated; after a failed initialisation the next call on the handler of a client follows a NULL pointer; the context of an extension of a client is never initialised."
  },
  {
   "property": "C199",
   "status": "partial",
   "theorems": [
    "Verif.Props.C199_memory_partial",
    "Verif.Props.C199_body_false",
    "Verif.Props.C199_header_false",
    "Verif.Props.C199_leak_false"
   ],
   "note": "Proved when there is memory for the compressed body and for the header. False: without memory for the body the answer is said to be gzip and is empty; without memory for the header the compressed body is sent as the page; when the buffer cannot be enlarged it is lost."
  },
  {
   "property": "C200",
   "status": "partial",
   "theorems": [
    "Verif.Props.C200_root",
    "Verif.Props.C200_file_partial",
    "Verif.Props.C200_missing_partial",
    "Verif.Props.C200_url_false",
    "Verif.Props.C200_index_false",
    "Verif.Props.C200_path_false",
    "Verif.Props.C200_open_false",
    "Verif.Props.C200_type_false",
    "Verif.Props.C200_text_false",
    "Verif.Props.C200_location_false"
   ],
   "note": "Never a file from elsewhere: proved in full. A file whole or not at all, and 404 or 302 for others: proved when the URL is copied and the headers and the text stored. False: NULL is read when the URL or index.html cannot be copied; a file that is there is 404 or an empty page; a file without its type; a missing one an empty page or a redirection without Location."
  },
  {
   "property": "C201",
   "status": "partial",
   "theorems": [
    "Verif.Props.C201_later_partial",
    "Verif.Props.C201_cache_false",
    "Verif.Props.C201_url_false",
    "Verif.Props.C201_empty_false",
    "Verif.Props.C201_coding_false",
    "Verif.Props.C201_path_false"
   ],
   "note": "Later requests: proved for all series of requests, unless an array of a cache could not be enlarged. False: then the callback follows NULL, as without a copy of the URL; a page that does not fit into the cache is an empty page said to be gzip; without the header the compressed page is sent as the page; a page that is there is passed over."
  },
  {
   "property": "C202",
   "status": "partial",
   "theorems": [
    "Verif.Props.C202_safe",
    "Verif.Props.C202_freed_partial",
    "Verif.Props.C202_leak_false"
   ],
   "note": "No use after free and no double free: proved for all interleavings at every moment. Freed at the end: proved when libmicrohttpd gives a response for the upgrade and switches the protocols. False otherwise: nobody calls onclose, and each such request keeps its block."
  },
  {
   "property": "C203",
   "status": "partial",
   "theorems": [
    "Verif.Props.C203_ends_partial",
    "Verif.Props.C203_example_partial",
    "Verif.Props.C203_onclose",
    "Verif.Props.C203_forever_false",
    "Verif.Props.C203_waits_false",
    "Verif.Props.C203_unmerged_false"
   ],
   "note": "With timeouts: proved for all callbacks that heed the close and all interleavings (bounded number of steps, no deadlock). False: a wait without a timeout in the manager callback sleeps for ever, as the signal is sent only after the callback was joined (by a client) or never (by a server); a final frame that cannot be merged ends the loop with connected still set."
  },
  {
   "property": "C204",
   "status": "partial",
   "theorems": [
    "Verif.Props.C204_renew_partial",
    "Verif.Props.C204_used_false",
    "Verif.Props.C204_twice_false",
    "Verif.Props.C204_count_false"
   ],
   "note": "u_map_clean and u_map_init in any series of calls, u_map_empty, and copies of a map that was cleaned: proved. False: every question and every u_map_put on a map that was cleaned reads through NULL, whatever it held; one that held something may not be cleaned again, and it still counts what it held."
  },
  {
   "property": "C205",
   "status": "partial",
   "theorems": [
    "Verif.Props.C205_function_partial",
    "Verif.Props.C205_none",
    "Verif.Props.C205_null_false",
    "Verif.Props.C205_nofunction_false",
    "Verif.Props.C205_print_partial",
    "Verif.Props.C205_sizes",
    "Verif.Props.C205_behind_false",
    "Verif.Props.C205_overread_false",
    "Verif.Props.C205_binary_false"
   ],
   "note": "Pointers that are not NULL, calls without a transfer, the example function that prints sizes, and the one that prints text when a NUL follows: proved. False: a NULL pointer is not handed on, the function gets the default of libcurl, stdout; without a function the pointer is used as a FILE; the example prints what lies behind a chunk, reads past what it may read, and drops what follows a NUL."
  },
  {
   "property": "C206",
   "status": "partial",
   "theorems": [
    "Verif.Props.C206_read_partial",
    "Verif.Props.C206_text_partial",
    "Verif.Props.C206_none",
    "Verif.Props.C206_start_partial",
    "Verif.Props.C206_https",
    "Verif.Props.C206_secure_partial",
    "Verif.Props.C206_clients_partial",
    "Verif.Props.C206_short_false",
    "Verif.Props.C206_pipe_false",
    "Verif.Props.C206_overflow_false",
    "Verif.Props.C206_directory_false",
    "Verif.Props.C206_plain_false",
    "Verif.Props.C206_clients_false"
   ],
   "note": "Files whose length is told and that can be read that far, missing files, missing memory, starting with the texts, that websocket_server never starts without TLS, simple_example not if one of its files could be read, and that auth_server verifies clients if the authority could be read: proved. False: simple_example -secure starts without TLS when neither file can be opened; auth_server does so with all three missing, and verifies no client when the authority is missing; pipes are written past a block of 0 bytes; a short read leaves uninitialised bytes in the text; the length of a directory may overflow."
  },
  {
   "property": "C207",
   "status": "partial",
   "theorems": [
    "Verif.Props.C207_found_partial",
    "Verif.Props.C207_unread",
    "Verif.Props.C207_again_false",
    "Verif.Props.C207_offset_false",
    "Verif.Props.C207_short_false"
   ],
   "note": "New names, files whose length is told and that can be read that far; missing files, missing memory, pipes: proved. False: a name that is in the map keeps the end of a longer old value and its length, in every map; an offset under a new name, and a file that becomes shorter while it is read, store bytes that were never written, in every map too."
  }
 ]
}