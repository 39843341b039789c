# Formal model of ulfius: design

The C sources in `/repo` were read as text; nothing was built or run. The model is in `/verif/lean/Verif`, Lean 4.33:

| directory | content |
|---|---|
| `Verif/Model/*` | the code, function by function; each definition cites file and lines and says what it leaves out |
| `Verif/Spec/*`  | what a user expects, written without the helpers of the model |
| `Verif/Lemmas/*`| helper lemmas |
| `Verif/Props/*` | the property theorems `Cxx_…`, each with an `example` meeting its hypotheses |

## Conventions

* A C string is a `List UInt8` (`Bytes`); `NoNul` where it matters. A nullable pointer is an `Option`.
* Undefined behaviour is a value: `Res.ub` (access out of bounds, use of freed memory, NULL dereference, use of
  uninitialised memory, signed overflow). A property that needs safety proves that the result is `ok`.
* Allocation failure is a parameter where a property is about it (C16); elsewhere allocations succeed.
* Sizes are `Nat`, with an explicit modulus where the property is about wrap-around.
* Theorem names: `Cxx_…` proves a part of the statement without restriction, `…_partial` proves it under restrictions or
  proves only a part (the comment above says what is missing), `…_false` refutes a part with a concrete witness.
* Callbacks (endpoints, match functions, extension functions) are arbitrary Lean functions, so the theorems hold for every
  callback that terminates. They get the state the C callback could change.

## Trusted base

* The Lean kernel and the axioms listed at the end (`propext`, `Classical.choice`, `Quot.sound` at most).
* The translation from C to Lean, done by hand. There is no mechanical link; every definition cites its source.
* Behaviour of libraries outside the repository, modelled from their documentation:
  * Orcania: NULL-safe comparisons, `o_strdup`, `o_strlen`, `msprintf`/`mstrcatf`, `trimwhitespace` (shortens in place),
    `split_string`, `string_array_*`, `pointer_list_*`;
  * libc: `memcpy`, `strchr`, `strtok_r`, `atoi`, `strtol`, `printf` conversions `%s %d %zu`, `qsort` as any sorted permutation,
    character classes and case of the C locale, `realpath` and the file system as parameters;
  * libmicrohttpd: calls the dispatcher with the chunks in order, the value iterators once per pair, the post iterator with
    increasing offsets, the completion callback once;
  * libcurl: calls write, header and read functions with the bytes in order; cookie lines in Netscape format;
  * GnuTLS and zlib: SHA-1, base64, random bytes, deflate and inflate are parameters;
  * sockets: a stream of segments, idle periods and hang-up events; TLS is not distinguished from plain;
  * pthreads: mutual exclusion, condition variables with spurious wake-ups. In the thread models one step is one lock, unlock,
    wait, signal, or access to one shared variable; sequential consistency;
  * jansson, rhonabwy, iddawc (token callbacks): parameters with the laws the properties state (dump and parse, verified claims);
  * `getopt_long` of the GNU C library and `fgets` for the program `uwsc`; `vsnprintf` as a parameter.

Not modelled: libmicrohttpd and libcurl internals, the log itself (yder), Windows variants and `U_DISABLE_*` builds, the
example programs other than the callbacks of `example_callbacks`, performance.

## Mutation testing

`seeded/LOG.jsonl` has one line per attempt: the definition edited, the edit, the claims it should break, the theorems that no
longer prove, the theorems tightened. The edits are small bugs in the model (wrong bound, dropped check, swapped arguments,
missing case) and, for false properties, the fix, which must make the `_false` theorem fail. Where every claimed theorem still
proved, a theorem or a property was added (`tightened`), or a note says why the edit has no observable effect.

Caveat: many edits are noticed because a helper lemma about the edited definition no longer proves. This shows that the proof
looked at the changed code; that the claimed statement itself is false after the edit was then judged by reading it. When only an
`example` failed, it was removed in the scratch copy and the build repeated, so that an example alone never counts.

## Per property

"**False**" introduces the parts refuted by a `_false` theorem with a concrete witness; the text before it says what the
other theorems of the row prove. The full statements are in `properties.jsonl`, and above the theorems.

| id | status | what is modelled | how it is proved, what is false | theorems |
|---|---|---|---|---|
| C01 | proved | `UrlCodec.urlEncode`, `urlDecode` (ulfius.c), byte lists and a buffer with UB outcome | induction on the string; every byte 1..255 | `C01_decode_encode` |
| C02 | proved | the same | alphabet and shape of the output, 3n+1 bound, injectivity from C01 | `C02_encode_alphabet`, `C02_encode_unreserved` |
| C03 | proved | decode loop over a buffer with its terminator; reads outside give `ub` | loop invariant; total because the measure is the rest of the text | `C03_decode_safe` |
| C04 | proved | the same, against `Spec` percent-decoding | induction over well-formed texts | `C04_decode_spec` |
| C05 | proved | `Utf8.utf8Check` with the bit operations of the C code | equivalence with "is the UTF-8 encoding of a list of Unicode scalar values" (`Spec.Utf8.IsUtf8`, from `Char`) | `C05_utf8_exact`, `C05_utf8Ok` |
| C06 | proved | the same, returned position | prefix valid, no valid character starts at the position | `C06_utf8_position` |
| C07 | proved | `UMap`: arrays of pointers and buffers with lengths, as in `struct _u_map` | refinement of an ordered association list by every call; induction on histories | `C07_refines_ordered_map` |
| C08 | proved | the same | invariant of all reachable maps | `C08_keys_unique` |
| C09 | partial | the same, with out-of-bounds and uninitialised reads as `ub` | safe for all histories of the calls and arguments named in the theorem. **False**: `u_map_has_value*` reads past a stored value; a NULL value stored with a length, then written to, overflows its one-byte block; the guard `offset+length+1` wraps around | `C09_memory_safe_partial`, `C09_false_value_search`, `C09_false_null_value`, `C09_false_wrap` |
| C10 | proved | `putBinary` with offsets | induction on the list of blocks | `C10_blocks_concatenate` |
| C11 | partial | `put`, `putBinary` | the length is the larger of the former and the new one. **False** when the former value was longer | `C11_length_partial`, `C11_false` |
| C12 | proved | the `_case` functions | filter and find with ASCII folding | `C12_case_insensitive` |
| C13 | proved | `copy` | the copy of a reachable map is the same map | `C13_copy_exact` |
| C14 | partial | `copyInto` | exact for string values. **False** for binary values (copied as strings) | `C14_copy_into_partial`, `C14_false` |
| C15 | partial | `hasValue`, `hasValueCase` | if no stored block is shorter than the text: true exactly when some block begins with it; `u_map_has_value_case` is exact up to the case of letters. **False**: prefix match, over-read | `C15_case_partial`, `C15_prefix_partial`, `C15_binary_partial`, `C15_null`, `C15_false` |
| C16 | partial | `putBinary` with the outcome of each allocation as a parameter | for a new key the map is unchanged when one of the first two allocations fails. **False** for the later ones (keys lost, then NULL dereference) and for existing keys (value lost) | `C16_failed_put_partial`, `C16_false_new_key`, `C16_false_existing_key` |
| C17 | proved | `splitUrl`, `formatMatch` (strtok semantics) | equivalence with an inductive matching relation on words | `C17_format_match` |
| C18 | proved | the same | the words do not depend on the slashes | `C18_slashes` |
| C19 | proved | `endpointMatch`; `qsort` is any permutation sorted by the comparison | membership, multiplicity and order | `C19_selection` |
| C20 | partial | `addEndpoint`, `isValid`, the endpoint array with its end marker | induction on histories. **False** when the null endpoint is added: accepted, and hides every endpoint added later | `C20_selectable_partial`, `C20_add`, `C20_selectable_false` |
| C21 | proved | `removeEndpoint` | filter characterisation | `C21_remove`, `C21_remove_params` |
| C22 | partial | `parseUrl` | equality with an alignment of words. **False** for formats with a `?` word and when a query parameter has the name of a URL parameter | `C22_params_partial`, `C22_params_value_partial`, `C22_params_false` |
| C23 | partial | `fillMap`, `fillMapCheckUtf8` | fold equals grouping by key. **False** when a key is empty: the collection stops | `C23_collect_partial`, `C23_collect_false` |
| C24 | proved | the callback loop of the dispatcher over arbitrary callbacks with state | the calls made are a prefix of the list, characterised | `C24_chain`, `C24_chain_answer` |
| C25 | proved | the same | counts along the trace | `C25_position` |
| C26 | partial | the same and the answer | status by outcome. **False**: an unknown code from the default endpoint gives no answer at all; a stream with UNAUTHORIZED is answered 200 | `C26_status_partial`, `C26_status_false` |
| C27 | partial | the same, with `setDefault` | exactly when nothing handled the request; the setter keeps callback and data. **False**: a default endpoint returning IGNORE is called twice | `C27_default_partial`, `C27_set`, `C27_default_false` |
| C28 | proved | `appendChunk` | induction on chunks, total below 2^64 bytes | `C28_body`, `C28_chunking` |
| C29 | partial | `mhd_iterate_post_data` | value is the limited concatenation when each chunk is valid UTF-8 (always for ASCII or with the check off). **False**: a chunk boundary inside a character loses data; an empty first value; the limit can cut a character | `C29_value_partial`, `C29_ascii_partial`, `C29_upload_callback`, `C29_chunking_false`, `C29_empty_first_false`, `C29_limit_breaks_utf8_false` |
| C30 | proved | body and stream setters of requests and responses | by cases on the arguments | `C30_response`, `C30_response_refused`, `C30_stream`, `C30_request` |
| C31 | proved | cookie array of a response | induction on any mix of both functions | `C31_cookies`, `C31_both` |
| C32 | partial | `generateCookieHeader` and a separate parser | round trip for names without `=`. **False** from max_age 2^31 on (printed with `%d`) | `C32_set_cookie_partial`, `C32_max_age_false` |
| C33 | partial | `copyCookie`, `copyResponse`, `duplicateResponse` | equal for responses with a protocol and full cookies. **False**: every response built with the API has no protocol and is refused; cookies with a NULL attribute leave dangling pointers | `C33_duplicate_partial`, `C33_duplicate_false`, `C33_cookie_false` |
| C34 | partial | `copyRequest`, `duplicateRequest` | equal for string values and IPv4. **False** for binary values and IPv6 addresses (truncated) | `C34_duplicate_partial`, `C34_binary_false`, `C34_address_false` |
| C35 | partial | `exportRequest` with in-place `yuarel_parse` | first export characterised. **False**: the first call cuts `http_url`, later ones return NULL | `C35_export_partial`, `C35_second_export_false` |
| C36 | partial | `yuarel.c` on byte buffers | recovers every rendered URL, port below 2^31. **False** above: `atoi` overflow (UB) or wrapped port | `C36_absolute_partial`, `C36_relative`, `C36_port_overflow_false`, `C36_port_wrap_false` |
| C37 | partial | `splitPath`, `parseQuery` | segments and pairs up to the maximum. **False** for an array of size 0 (written anyway) and for the last value of a truncated query | `C37_split_path_partial`, `C37_query_partial`, `C37_split_zero_false`, `C37_query_truncated_false` |
| C38 | proved | `ulfius_write_body` | induction on chunks, total below 2^64-1 | `C38_body_limit` |
| C39 | proved | `write_header` | one entry per name up to case, comma-joined, for the lines named in the statement; `C39_malformed_false` records what other lines do (outside the statement) | `C39_headers`, `C39_malformed_false` |
| C40 | proved | `smtp_payload_source` | induction on buffer sizes | `C40_payload` |
| C41 | partial | the cookie loop over the lines given by libcurl, with freed pointers as `ub` | exact condition for safety. **False**: a cookie line with fewer fields than an earlier one reads and frees freed memory | `C41_cookies_partial`, `C41_use_after_free_false`, `C41_empty_value_false` |
| C42 | partial | URL building of the HTTP client | splitting and unescaping gives the parameters back. **False** for every URL with a fragment | `C42_url_partial`, `C42_fragment_false` |
| C43 | proved | `buildFrame` and the reader on a byte stream cut into segments | round trip, payloads below 2^32 | `C43_round_trip` |
| C44 | partial | `buildFrame`, against `Spec` RFC 6455 frames | equal below 2^54 bytes (2^32 masked); the opcodes accepted. **False** above: wrong first length byte; masking loop with a wrapping counter | `C44_rfc_partial`, `C44_opcodes`, `C44_rfc_false`, `C44_masked_false` |
| C45 | partial | `sendLoop` and the receive loop | single-frame case. **False** for every message really cut: the first frame has opcode 0 and the receiver closes | `C45_one_frame_partial`, `C45_fragmented_false` |
| C46 | proved | receive loop as a machine over frames | equal to the RFC reassembly rule for every byte stream | `C46_reassembly`, `C46_every_stream` |
| C47 | proved | the same | invariant | `C47_text_is_utf8` |
| C48 | proved | the same | nothing follows a close, error or disconnection event | `C48_after_frame`, `C48_after_control`, `C48_after_disconnection` |
| C49 | proved | the same | invariant | `C49_masking` |
| C50 | partial | the same | characterisation of what is refused. **False**: one common bit suffices; control and continuation frames are not checked | `C50_rsv_partial`, `C50_overlap_false`, `C50_control_false` |
| C51 | proved | message lists | refinement of a queue, induction on histories | `C51_fifo` |
| C52 | proved | `srvNegotiate`, `cliNegotiate` | invariant over items; callbacks arbitrary | `C52_disjoint` |
| C53 | proved | `serverHandshake`; SHA-1/base64 as a parameter | equivalence with conditions on the list of headers | `C53_upgrade` |
| C54 | partial | `clientHandshake` on a byte stream | exactly which answers open; first line; the second word of an accepted first line reads as 101. **False**: the accept value is never looked at; one mark is enough; a truncated answer is a success with a closed socket | `C54_opens_partial`, `C54_first_line`, `C54_status`, `C54_accept_ignored_false`, `C54_one_mark_false`, `C54_truncated_false` |
| C55 | proved | `firstMatch`, `listMatch` | equality with find/filter on trimmed items | `C55_subprotocol` |
| C56 | proved | `randomAtMost`, `randString` over a stream of random bytes | counting | `C56_uniform`, `C56_key`, `C56_alphabet`, `C56_alphabet_uniform` |
| C57 | proved | deadline arithmetic | exact equation | `C57_deadline` |
| C58 | partial | interleaving model of the stop call with any number of websocket threads (`Active`) | inductive invariants, progress and a decreasing measure. Needs that registrations are kept apart (C59) and no connection is lost before its upgrade (C83). **False**: `C58_late_false` (a websocket opened between the last test and `MHD_stop_daemon`) | `C58_empty_partial`, `C58_wakeup`, `C58_progress_partial`, `C58_bounded`, `C58_returns_partial`, `C58_late_false` |
| C59 | partial | the same, table reallocation as separate steps | safe and complete when registrations are kept apart. **False**: overflow, double free and removal schedules | `C59_safe_partial`, `C59_complete_partial`, `C59_overflow_false`, `C59_doubleFree_false`, `C59_remove_false` |
| C60 | partial | `WaitClose`: waiter, websocket thread, condition variable with spurious wake-ups | what a return value says. **False**: lost wake-up; spurious wake-up returns CLOSE; the server side never signals | `C60_asleep_partial`, `C60_closed`, `C60_open`, `C60_running`, `C60_missed_false`, `C60_spurious_false`, `C60_server_false` |
| C61 | partial | `serverMatch`, `param`, `bits` | windows 8..15 and parameters echoed. **False**: 8 becomes 9 in the answer; misspelt parameter names are accepted | `C61_match_partial`, `C61_accepts`, `C61_window8_false`, `C61_misspelt_false` |
| C62 | partial | `initAny`, `validateLoop`, start functions | exact characterisation. **False**: a blank endpoint may stand inside the list; `ulfius_start_framework_with_mhd_options` validates nothing | `C62_init`, `C62_initIpv6`, `C62_fresh`, `C62_started_partial`, `C62_accepts`, `C62_defined`, `C62_blank_false`, `C62_options_false` |
| C63 | proved | `startSecureCa`, `daemonFor` | by cases, options passed to the daemon | `C63_tls`, `C63_others`, `C63_refused`, `C63_options` |
| C64 | partial | `duplicateLoop` with block sizes | **False** for every list that is not empty (block sized for pointers); trivial for the empty list | `C64_overflow_false`, `C64_empty_partial` |
| C65 | partial | static file callback; `realpath` and the file system as parameters | what is served has the root as textual prefix, and is below it if no sibling shares the prefix. **False**: sibling directory | `C65_prefix_partial`, `C65_down_partial`, `C65_serves`, `C65_cache_partial`, `C65_sibling_false` |
| C66 | proved | form body of the HTTP client | round trip | `C66_form` |
| C67 | partial | cookie lines of libcurl (Netscape format) | all but two attributes. **False**: Secure and HttpOnly are read from the wrong columns | `C67_cookie_partial`, `C67_list_partial`, `C67_flags_false`, `C67_sample_false` |
| C68 | partial | mail text, against a separate RFC 5322 reader | round trip without CR LF in the fields. **False**: CR LF adds header lines | `C68_mail_partial`, `C68_injection_false` |
| C69 | proved | `readData` and the receive loop over segmented input | outcome depends on the concatenation only | `C69_segmentation` |
| C70 | partial | poll/hang-up events | messages before the hang-up. **False**: bytes unread when it is noticed are lost | `C70_before_hangup_partial`, `C70_hangup_false` |
| C71 | partial | frame buffer with uninitialised cells | exact condition. **False** for fragments up to 125 bytes of messages of 126 to 65535 bytes (two heap bytes sent) | `C71_uninitialised_partial`, `C71_heap_bytes_false` |
| C72 | proved | receive loop | one pong with the same payload | `C72_pong` |
| C73 | partial | `sendLoop` | payload and RSV recorded. **False**: opcode recorded as 0 | `C73_outgoing_partial`, `C73_opcode_false` |
| C74 | partial | `sendFrame` over poll/send results | what was written is a prefix; all if no failure. **False**: U_OK although nothing or part was sent | `C74_progress_partial`, `C74_prefix`, `C74_whole_partial`, `C74_not_sent_false` |
| C75 | partial | extension chain, functions arbitrary | reverse order undoes. **False** with different user data (C76) | `C75_inverse_partial`, `C75_sent_partial`, `C76_user_data_false` |
| C76 | partial | the same | **False**: the in function gets the user data of the out function (u_websocket.c:616) | `C76_same_data_partial`, `C76_user_data_false` |
| C77 | partial | message list | usable when it was empty. **False**: `len` kept, next push is UB | `C77_empty_partial`, `C77_clear_false` |
| C78 | partial | receive loop and closing handshake | delivered messages only while open. **False** for frames read during the closing handshake | `C78_incoming_partial`, `C78_closing_false` |
| C79 | proved | both deflate callbacks composed, and within the negotiation of both ends | same windows and flush modes, every offer; `C79_same_bit`: through the whole header negotiation, both ends have the extension on and the same reserved bit | `C79_agree`, `C79_same_bit` |
| C80 | partial | `isFirst`, server callback | induction over the items before the offer: any place in the list, right behind the comma. **False** behind `, ` (leading blank kept) | `C80_anywhere_partial`, `C80_absent`, `C80_later_false` |
| C81 | partial | `Active` | flag set and kept between. **False**: the upgrade clears the flag; later registrations are never asked | `C81_flag_partial`, `C81_keep_partial`, `C81_upgrade_false`, `C81_late_false` |
| C82 | partial | `Active` | window characterised. **False**: the count is lowered before the last use of the locks | `C82_window_partial`, `C82_quiet_partial`, `C82_clean_false` |
| C83 | partial | `Active` with lost connections | returns when none is lost. **False** otherwise | `C83_returns_partial`, `C83_lost_false` |
| C84 | partial | `WaitClose` | **False**: CLOSE is returned while the thread still uses the websocket | `C84_clear_partial`, `C84_early_false` |
| C85 | partial | `WsHandle` state machine | careful callers are safe. **False**: dangling or null handle pointer | `C85_careful_partial`, `C85_reusable`, `C85_close_false`, `C85_retry_false`, `C85_null_false` |
| C86 | partial | `Instance` start/stop | a refused start changes nothing else. **False**: the second start forgets the daemon | `C86_twice_false`, `C86_refused_partial` |
| C87 | proved | `daemonFor` | exact daemon options | `C87_ipv4`, `C87_ipv6` |
| C88 | partial | any history of instance calls | safe for callers that initialise, start only stopped instances, stop before cleaning. **False** otherwise | `C88_life_partial`, `C88_clean_false`, `C88_remove_false` |
| C89 | partial | `requested`, `advance` | name is what follows the prefix. **False**: a shorter URL is read behind its end | `C89_inside_partial`, `C89_name_partial`, `C89_prefix_false` |
| C90 | partial | `serveCompressed` with a count of open files | closed when compressed. **False** otherwise (leak) | `C90_closed_partial`, `C90_leak_false` |
| C91 | partial | `removeFromValue*` | case-insensitive function exact. **False** for `u_map_remove_from_value`: prefix match, over-read | `C91_case_partial`, `C91_prefix_partial`, `C91_prefix_false`, `C91_overread_false` |
| C92 | partial | `yuarel_parse` | every accepted text is its components rendered, and they are the only split in which each component ends at the first delimiter that can end it (`C92_unique`). **False** for the port being a number and for a host without an at sign | `C92_accepted_partial`, `C92_unique`, `C92_port_false`, `C92_host_false` |
| C93 | partial | `exportResponse`, read by `Spec.Http.message` | status, fields, cookies, length and body read back. **False**: CR LF behind the body; body cut at NUL; header injection | `C93_response_partial`, `C93_trailer_false`, `C93_nul_false`, `C93_injection_false` |
| C94 | partial | `exportRequest`, the same reader, the form decoder | target, fields, body read back. **False**: no empty line without body and form; blanks in the query; URL without path; form entry without value | `C94_body_partial`, `C94_form_partial`, `C94_end_false`, `C94_blank_false`, `C94_path_false`, `C94_entry_false` |
| C95 | partial | `srvNegotiate` | log of enabled extensions in offer order equals the answer; callbacks arbitrary. **False** for names behind `, ` | `C95_answer`, `C95_names_partial`, `C95_blank_false` |
| C96 | partial | `cliNegotiate`, `clientHandshake` | one extension per item. **False** when none is registered | `C96_every_item_partial`, `C96_unasked_false` |
| C97 | partial | `Model/Answer`: `dispatch` (whole answer: status, lines, content), `fill`, `setHeaders`, `setCookies`, `getBody` | the chain is run as a big-step relation, then loop end and fallback end are computed for readable responses; `C24_chain_answer` transfers the call order by the refinement `dispatch_refines` between the two dispatcher models | `C97_answer_partial`, `C24_chain_answer`, `C97_fallback_false` |
| C98 | partial | the same, `MHD_add_response_header` is a parameter that sees the lines already taken | lines sent are those up to the first refused one. **False**: the status and body of the callback are sent with later headers and all cookies missing | `C98_refused_partial`, `C98_truncated_false` |
| C99 | partial | the same, `stream` | last call decides. **False** in the fallback call of the default endpoint: the stream is ignored (`C99_fallback_false`), and for blocks of size 0, which libmicrohttpd refuses: nothing is answered (`C99_block_false`) | `C99_stream_partial`, `C99_fallback_false`, `C99_block_false` |
| C100 | partial | the same, `websocket`; the handshake itself is a parameter | last call decides. **False** with IGNORE and a default endpoint: plain response with status 101 | `C100_upgrade_partial`, `C100_ignored_false` |
| C101 | partial | `initHeaders`, the same | invariant on the header map through the chain. **False** for the answers the dispatcher builds itself | `C101_defaults_partial`, `C101_errors_false` |
| C102 | partial | `Model/DeflateData`: `messageOut`, `messageIn`, `collect`, `strip`; zlib is a parameter (all output for an input); the Z_BLOCK branch is dead and left out | induction on the sequence, for every zlib with `Lossless`; `storedZlib` (stored blocks, `Spec/Stored`) is shown to be one. **False** from 4 GiB on | `C102_round_trip_partial`, `C102_huge_false`, `storedZlib_lossless` |
| C103 | partial | the same; the receiver `rfcReceive` appends the marker and inflates | induction on the sequence. **False** for an empty message: its payload is empty although RSV1 is set | `C103_readable_partial`, `C103_empty_false` |
| C104 | partial | the same | induction on the sequence, for every zlib. **False** after a block with BFINAL: later messages are delivered empty without an error | `C104_receive_partial`, `C104_final_false` |
| C105 | proved | `Model/Send.lean`: the option sequence of `ulfius_send_http_streaming_request_max_header` in program order and the wrappers, with libcurl as a parameter (which options it accepts, what it delivers); `Spec/Curl.lean`: what the options mean, from libcurl documentation | the options of every transfer are computed (`send_cases`, `plan_transfer`) and interpreted by the specification; all four checks and the CA path follow for every request | `C105_tls` |
| C106 | partial | `Model/Send.lean`: the option sequence of `ulfius_send_http_streaming_request_max_header` in program order and the wrappers, with libcurl as a parameter (which options it accepts, what it delivers); `Spec/Curl.lean`: what the options mean, from libcurl documentation | same; composed with C42 (URL) and C66 (form). False for HEAD: no `CURLOPT_NOBODY`, `C106_head_false` | `C106_request_partial`, `C106_head_false` |
| C107 | partial | `Model/Send.lean`: the option sequence of `ulfius_send_http_streaming_request_max_header` in program order and the wrappers, with libcurl as a parameter (which options it accepts, what it delivers); `Spec/Curl.lean`: what the options mean, from libcurl documentation | the text libcurl sends is read back by a header reader; false for blank values (`C107_blank_false`), CR LF (`C107_injection_false`), content type in another case plus form (`C107_duplicate_false`) | `C107_headers_partial`, `C107_blank_false`, `C107_injection_false`, `C107_duplicate_false` |
| C108 | partial | `Model/Send.lean`: the option sequence of `ulfius_send_http_streaming_request_max_header` in program order and the wrappers, with libcurl as a parameter (which options it accepts, what it delivers); `Spec/Curl.lean`: what the options mean, from libcurl documentation | the cookie text is read back; false with a Cookie header (`C108_lost_false`), for ";" (`C108_injection_false`) and NULL values (`C108_null_false`) | `C108_cookies_partial`, `C108_lost_false`, `C108_injection_false`, `C108_null_false` |
| C109 | partial | `Model/Send.lean`: the option sequence of `ulfius_send_http_streaming_request_max_header` in program order and the wrappers, with libcurl as a parameter (which options it accepts, what it delivers); `Spec/Curl.lean`: what the options mean, from libcurl documentation | false for all restricted requests (`C109_family_false`): `network_type & U_USE_ALL` is non-zero for each single family; only the unrestricted case holds | `C109_family_partial`, `C109_family_false`, `C109_sample_false` |
| C110 | partial | `Model/Send.lean`: the option sequence of `ulfius_send_http_streaming_request_max_header` in program order and the wrappers, with libcurl as a parameter (which options it accepts, what it delivers); `Spec/Curl.lean`: what the options mean, from libcurl documentation | composed from C38, C39, C31, C41 for a fresh response and one response of the server; false for reused responses (`C110_stale_false`) and redirections (`C110_redirect_false`) | `C110_response_partial`, `C110_stale_false`, `C110_redirect_false` |
| C111 | partial | `Model/Send.lean`: the option sequence of `ulfius_send_http_streaming_request_max_header` in program order and the wrappers, with libcurl as a parameter (which options it accepts, what it delivers); `Spec/Curl.lean`: what the options mean, from libcurl documentation | case analysis over the first refused option; false when it is the cookie option (`C111_cookie_false`): `cookie` is freed before it is logged, u_send_request.c:596–600 | `C111_errors_partial`, `C111_cookie_false`, `C111_sample_false` |
| C112 | partial | `Model/Options`: `setRequestOption` (30 options), `setRequestProperties`; a text argument may be the text the request already holds | the request is related to an ideal one (`Describes`), each option is simulated (`option_step`), then induction; the last-value form follows from `ideal_last`, `ideal_map`. **False** for own texts (use after free), NULL appended to the URL, timeouts from 2^31 on | `C112_options_partial`, `C112_last_partial`, `C112_own_false`, `C112_append_false`, `C112_timeout_false` |
| C113 | proved | `Model/Message`: `setOption`, `setProperties` | induction over the list, each option by cases | `C113_options` |
| C114 | partial | `Model/Options`: `setJsonBodyReq`, `getJson` (count and search of the header, then the text given to `json_loadb`); `Model/Message`: `setJsonBody`; jansson appears as text | the map lemmas give exactly one content type after the put. **False** for `content-type` in another spelling | `C114_round_trip_partial`, `C114_spelling_false` |
| C115 | partial | the same; `Spec/Options.isJson` is the media type comparison of RFC 9110 | characterisation of `getJson` by the content of the map. **False** in both directions | `C115_media_partial`, `C115_case_false`, `C115_other_false` |
| C116 | partial | `jsonError`: which fields are written | the same. **False** for several content type headers and for responses | `C116_error_partial`, `C116_several_false`, `C116_response_false` |
| C117 | partial | `Model/Mail`: options of `ulfius_send_smtp_rich_email` in program order, libcurl as a parameter; `Spec/Mail`: what the options mean | the options of every transfer are computed and interpreted. **False** of the documented parameter `verify_certificate` (include/ulfius.h:792 says true disables the check), for every TLS mail | `C117_connection_partial`, `C117_documented_false`, `C117_unchecked_false`, `C117_user_false` |
| C118 | proved | `Model/Mail`: options of `ulfius_send_smtp_rich_email` in program order, libcurl as a parameter; `Spec/Mail`: what the options mean | same; the text of two calls differing in bcc is equal; delivery of the text in blocks is C40 | `C118_recipients` |
| C119 | partial | `Model/Mail`: options of `ulfius_send_smtp_rich_email` in program order, libcurl as a parameter; `Spec/Mail`: what the options mean | case analysis. **False**: a missing subject or content type is accepted | `C119_result_partial`, `C119_subject_false`, `C119_type_false` |
| C120 | partial | `Model/WsOpen`: `openClient`, `openPlain`, `openTls`, `connectionHandshake`, `urlCredentials`; network, TLS, threads and base64 are parameters, what leaves the process is a list of steps; `Spec/WsOpen` | `open_shape` decomposes the call for well-formed URLs; the text sent is read by the independent HTTP reader of `Spec/Http`. **False** for names that differ in case, line breaks, URL parameters | `C120_request_partial`, `C120_case_false`, `C120_injection_false`, `C120_params_false` |
| C121 | partial | `setWebsocketRequest` in `Model/WsOpen` | the resulting map is computed (`prepare_eq`) and shown to meet `Spec/Handshake.Valid`, the conditions of C53. **False** for other spellings, and for the URL the request already holds | `C121_prepared_partial`, `C121_key`, `C121_spelling_false`, `C121_own_false` |
| C122 | proved | `Model/WsOpen`: `openClient`, `openPlain`, `openTls`, `connectionHandshake`, `urlCredentials`; network, TLS, threads and base64 are parameters, what leaves the process is a list of steps; `Spec/WsOpen` | by the structure of the code, for every byte string as URL: what the parser accepts is the URL split in the only possible way (C92) | `C122_tls`, `C122_other` |
| C123 | partial | `Model/WsOpen`: `openClient`, `openPlain`, `openTls`, `connectionHandshake`, `urlCredentials`; network, TLS, threads and base64 are parameters, what leaves the process is a list of steps; `Spec/WsOpen` | from `open_shape`. **False** from port 2^16 | `C123_connect_partial`, `C123_port_false` |
| C124 | partial | `Model/WsOpen`: `openClient`, `openPlain`, `openTls`, `connectionHandshake`, `urlCredentials`; network, TLS, threads and base64 are parameters, what leaves the process is a list of steps; `Spec/WsOpen` | from `open_shape` and the HTTP reader. **False** for the name of the scheme and for the request of the caller | `C124_credentials_partial`, `C124_basic_false`, `C124_request_false` |
| C125 | partial | `Model/WsOpen`: `openClient`, `openPlain`, `openTls`, `connectionHandshake`, `urlCredentials`; network, TLS, threads and base64 are parameters, what leaves the process is a list of steps; `Spec/WsOpen` | from `open_shape` and `clientHandshake_closed`. **False** on three error paths | `C125_closed_partial`, `C125_resolve_false`, `C125_tls_false`, `C125_extension_false` |
| C126 | partial | `addExtension`, `addAll`, `contextRead` in `Model/WsOpen`, negotiation of `Model/Handshake` | induction over the registrations; C52 gives disjoint bits, three single bits leave room for three. **False** for the context on the client | `C126_register_partial`, `C126_context_false` |
| C127 | partial | `Model/WsServe`: the life of a server websocket as a relation, threads as interleavings | cases over the lives. **False** on two paths, undefined on two more | `C127_onclose_partial`, `C127_messages`, `C127_response_false`, `C127_lost_false`, `C127_thread_false`, `C127_status_false` |
| C128 | partial | `Model/Memory`: every pointer of a request and its maps, a heap in which identifiers are used once, programs over any number of requests | ownership by counting: each allocated block is accounted for exactly once, kept by every function (`Lemmas/Memory`, `Lemmas/MemoryRequest`), then induction over the program. **False** with client certificates (leak), for cleaning twice and for copies into a used request, undefined when memory runs out in ulfius_init_request | `C128_memory_partial`, `C128_copy_false`, `C128_import_false`, `C128_twice_false`, `C128_into_false`, `C128_init_false` |
| C129 | partial | `Model/MemoryResponse`: every pointer of a response, its headers, cookies and websocket handle, programs over any number of responses | as C128: ownership by counting, kept by every function (`Lemmas/MemoryResponse`), then induction over the program with a record of what was done to each response. **False** for copies of incomplete cookies (double free), for a second answer in one response and for copies into a used response (leaks), for cleaning twice | `C129_memory_partial`, `C129_cookie_false`, `C129_fetch_false`, `C129_into_false`, `C129_twice_false` |
| C130 | partial | `Model/MemoryServer`: the blocks of one request from `ulfius_uri_logger` through all calls of the dispatcher to `mhd_request_completed` (connection, request, maps, uploaded parameters, copies of endpoints, words of URLs, response, buffers, answer), the instance, and sequences of requests broken off anywhere; callbacks are any lists of calls on request and response | as C128 and C129: ownership by counting through every function (`Lemmas/MemoryServer`, `MemoryEndpoints`, `MemoryDispatch`), then induction over the endpoints that are called and over the requests. **False** for a client certificate that cannot be imported (double free), answers that cannot be made, refusals with a body and a field that is not taken, unknown results of the default endpoint, parameters without name (leaks). Websockets are in C137 | `C130_memory_partial`, `C130_certificate_false`, `C130_answer_false`, `C130_refused_false`, `C130_default_false`, `C130_parameter_false` |
| C131 | partial | `Model/Compress`: the callback with the real maps of request and response; zlib is a parameter (setting up a stream may fail, a call may fail, the output of a finished stream is delivered block by block). The client is `Spec/Coding`: it undoes the codings named in the header lines | induction on the pending output for the loop, refinement of the maps to lists of header lines (`HoldsParams`), the list of codings by `Items` as for C83. **False** for responses that have a Content-Encoding already and for bodies of 4 GiB or more | `C131_compression_partial`, `C131_encoded_false`, `C131_long_false` |
| C132 | partial | `Model/Token`: both callbacks with the real maps of the request, jansson (`Spec/Json`), `split_string`; rhonabwy, the clock and what `split_string` does with NULL are parameters. `Spec/Token` says where a token is, which claims are live, which scopes are enough | case analysis of every outcome (`oauth2_outcome`, `oidc_outcome`), the maps refined to lists of lines, the lists of scopes to words. **False** for required scopes with additional spaces | `C132_oauth2_partial`, `C132_oidc_partial`, `C132_scope_false` |
| C133 | partial | as C132 | the same outcomes read in the other direction. **False** for tokens of clients without a user, tokens without scopes (refused, or undefined behaviour), times of expiry beyond 64 bits (undefined behaviour), the scheme in lower case | `C133_oauth2_partial`, `C133_oidc_partial`, `C133_client_false`, `C133_scopeless_false`, `C133_overflow_false`, `C133_scheme_false` |
| C134 | partial | as C132 and C135; a client reads the challenge with the parser in `Spec/Token` | the outcomes again, `u_map_put` refined to lists, and a proof that the parser reads back the words written, for every realm that is a word. **False** for the codes of expired and missing tokens, for other realms, for tokens with a missing or superfluous proof | `C134_oauth2_partial`, `C134_oidc_partial`, `C134_iddawc_partial`, `C134_expired_false`, `C134_missing_false`, `C134_realm_false`, `C134_silent_false` |
| C135 | partial | `Model/Token`: the callback with the real maps of the request; iddawc is a parameter | case analysis; both directions. **False** for Content-Type in another case | `C135_iddawc_partial`, `C135_spelling_false` |
| C136 | partial | `Model/Token`: the function, rhonabwy a parameter | case analysis; equivalence. **False** for several headers DPoP; undefined behaviour for huge limits | `C136_proof_partial`, `C136_many_false`, `C136_age_false` |
| C137 | partial | `Model/MemoryWs`, joined to the requests of C130 in `Model/MemoryServer`: the blocks of the handshake (offers, contexts of extensions, fields, key), of the websocket and its copy of the request, its manager, lists of messages, buffers, frames and fragments, the table of the instance; a program is any list of requests, frames, calls on websockets and ends. `mhd_request_completed` runs right after the request: the websocket has its own copy, so the order makes no difference. Races between threads and failures of `o_malloc` and `pthread_mutex_init` are not modelled | ownership by counting through every function (`Lemmas/MemoryWs`), then induction over frames, fragments, extensions, messages and what happens. **False** as the theorems show: leaks (bits, protocol, answer, queue, ignore, certificate), use after free (field), use of a list without memory (list) | `C137_memory_partial`, `C137_bits_false`, `C137_protocol_false`, `C137_answer_false`, `C137_field_false`, `C137_queue_false`, `C137_ignore_false`, `C137_certificate_false`, `C137_list_false` |
| C138 | partial | `Model/WsThreads`: every call of `ulfius_websocket_send_fragmented_message` as a thread of small actions (look at `connected`, extensions, take the lock, each `send`, keep the message, release the lock, set `connected`), interleaved in any order with the others; the frames are those of C44. Two threads inside an extension that has a context are undefined behaviour. Allocations and locks succeed; what is read while waiting for the answer to a close frame is left out | invariant of all executions with the log of calls in the order of the lock (`Lemmas/WsThreads`): what is on the wire is the bytes of the log, the last entry in part if the lock is held; progress by a measure. **False** in general: `C138_race_false` (extensions run outside the lock, contexts race), `C138_order_false` (messages leave in another order than they came out of the extension, so that an inflater with context cannot read them), `C138_close_false` (data behind a close frame) | `C138_whole`, `C138_serial_partial`, `C138_returns_partial`, `C138_delivered_partial`, `C138_race_false`, `C138_order_false`, `C138_close_false` |
| C139 | partial | `Model/Live`: `ulfius_add_endpoint`, `ulfius_remove_endpoint`, `ulfius_clean_endpoint_list` with all their blocks on the array of the instance, and requests that read the array element by element (`ulfius_endpoint_match`), then call their copies one by one; actions of all of them in any order. Nothing is locked: an access to the list while a call changes it is a data race, a pointer to an array that was moved is dangling; both are undefined behaviour. Left out: the default endpoint, what callbacks do to the response (C24), allocation failures | invariant of all executions (`Lemmas/Live`): blocks are owned by the list or by one request each, each request holds a selection from the list at its beginning; progress by the number of elements left. **False** in general: `C139_moved_false`, `C139_removed_false`, `C139_both_false` (no lock; every connection has its own thread, so that a callback that adds an endpoint races with the other connections), `C139_empty_false` (the empty endpoint is accepted, hides what follows and makes the cleaning stop) | `C139_snapshot_partial`, `C139_answered_partial`, `C139_memory_partial`, `C139_moved_false`, `C139_removed_false`, `C139_both_false`, `C139_empty_false` |
| C140 | partial | `Model/MemorySend`: the blocks of the client from the copy of the request to the body of the answer, of the mail function, and programs that mix them with the calls of C128 and C129. libcurl is a parameter that may refuse every option (those between two allocations taken together), escape and list element. The URL, the form, the list of headers, the cookies, the variables of the loop over the cookie list (never reset) and `ulfius_write_body` with its limit are modelled one by one. Allocations succeed | ownership by counting through every function (`Lemmas/MemorySend`), the invariants of C128 and C129 side by side, induction over the program. **False** as the theorems show: leaks of list elements libcurl refused to extend (`header`, `mail`), of a body (`again`), of a certificate; use of freed memory for refused cookies (`cookie`) and for a cookie list in which a cookie with a value is followed by one without (`value`, a server can do that; see C41) | `C140_memory_partial`, `C140_header_false`, `C140_cookie_false`, `C140_value_false`, `C140_again_false`, `C140_certificate_false`, `C140_mail_false` |
| C141 | partial | `Model/WsJson`: `ulfius_websocket_send_json_message`, `ulfius_websocket_parse_json_message`, `ulfius_websocket_send_message` on top of `Model/Frame` (extensions, frames, receive loop). jansson is a parameter: what its manual says of `json_dumps` and `json_loadb` is the hypothesis `Documented`; that it reads back the texts it writes is part of it (strings with U+0000 need another flag and are excluded by it) | induction over the values sent; C44, C75 and the lemmas of the receive loop. **False** in general: `C141_scalar_false` (`json_dumps` without JSON_ENCODE_ANY gives NULL, the result is not checked, an empty text message is sent and U_OK returned) | `C141_round_trip_partial`, `C141_refused`, `C141_scalar_false` |
| C142 | partial | `Model/Uwsc`: `uwsc_manager_callback` pass by pass (`fgets` with its buffer of 256 bytes, C strings), `read_file`, on a connection whose status at each pass is a parameter; the sends are the calls of `ulfius_websocket_send_message` (C43, C44, C74 say what these do). Left out: the command line, files that change while they are read | invariant of the passes by induction over the lines. **False** in general: `C142_long_false`, `C142_last_false` (the last byte read is dropped as if it were a line end), `C142_quit_false` (every line that begins with !q), `C142_nul_false`, `C142_end_false` (the loop never ends at the end of the input), `C142_fragment_false` (-f is stored and not used) | `C142_typed_partial`, `C142_long_false`, `C142_last_false`, `C142_quit_false`, `C142_nul_false`, `C142_end_false`, `C142_fragment_false` |
| C143 | partial | `Model/Uwsc`: `uwsc_manager_incoming` with the conversion `%.*s` of a length cast to int | direct. **False** in general: `C143_huge_false` (negative precision, the data are read beyond their end), `C143_nul_false` | `C143_shown_partial`, `C143_huge_false`, `C143_nul_false` |
| C144 | proved | `Model/EndpointList`: `ulfius_add_endpoint_list` on an array of pointers (reading behind it is undefined), `ulfius_add_endpoint_by_val`, `ulfius_remove_endpoint_by_val` with its uninitialised fields as parameters; on `Model/Endpoint` | induction on the array with C20_add; C21 for the removal | `C144_list`, `C144_add_by_val`, `C144_remove_by_val`, `C144_remove_params` |
| C145 | partial | `Model/Log`: `mhd_redirect_log` with `vsnprintf` as a parameter (and one instance with the usual conversions); `y_log_message` formats its argument again. Left out: allocation failure | for every vsnprintf that copies text outside of conversions (shown for the instance). **False** in general: `C145_percent_false` (`y_log_message(Y_LOG_LEVEL_ERROR, out)` uses the message as a format: `%s` in a header value is undefined behaviour, `%%` is logged as `%`) | `C145_logged_partial`, `C145_percent_false` |
| C146 | partial | `Model/UwscMain`: `getopt_long` of the GNU C library with the tables of uwsc (clusters, optional arguments, abbreviated names, permutation), the switch of `main`, up to the arguments of `ulfius_set_websocket_request`. Left out: printed texts, POSIXLY_CORRECT | a relation describes how a command line is written (options of the help text in six ways, operands between them); induction on it gives the options read, induction on these the configuration. **False** in general: `C146_extension_false` (`e::` makes `-e VALUE` connect to VALUE), `C146_cluster_false` (`-iq` is only `-i`); the length of fragments is read but not used (`C142_fragment_false`) | `C146_options_partial`, `C146_refused`, `C146_extension_false`, `C146_cluster_false` |
| C147 | partial | `Model/Client` (`requestUrl`, `requestForm`), `Model/Endpoint` (`collect`: `ulfius_fill_map`), `Model/Upload` (`mhd_iterate_post_data`). Between them: `Spec/Arguments` says which arguments and form fields libmicrohttpd may report for a query or body (each text decoded, values in any parts) | composition of C42/C66 (what is sent) and C23 and C29 (what is collected). **False** in general: `C147_question_false` (a URL ending in `?` is asked for with `?&a=1`; the nameless first argument stops the collection, the parameter is lost), `C147_part_false` (with UTF-8 checked, a character cut by two parts loses the value) | `C147_url_partial`, `C147_value_partial`, `C147_form_partial`, `C147_question_false`, `C147_part_false` |
| C148 | partial | `Model/FileUpload`: `mhd_iterate_post_data` with and without `file_upload_callback`, the part of `ulfius_webservice_dispatcher` that collects the body; libmicrohttpd stops its post processor after MHD_NO | induction on what is found in the parts; fields by comparison with the form of C147, body by C28. **False** in general: `C148_nameless_false` (a field without a name ends the reading of the form, all behind it is lost silently), `C148_body_false` (binary_body still holds the whole upload) | `C148_files_partial`, `C148_set`, `C148_nameless_false`, `C148_body_false` |
| C149 | partial | `Model/Upgrade` (the fields of the upgrade response, src/ulfius.c:735-775) between `Model/WsOpen` (request), `Model/Handshake` (both negotiations, reading of the answer) | composition of C121 (what is sent), C53 and C95 (what the server does) and the line reader of C54; for the extensions an induction on the items of the answer, with the reserved bits still free as invariant. **False** in general: `C149_blank_false` (the client stores what stands behind the colon, with the blank; the server never sets protocol and extensions of its manager) | `C149_opens_partial`, `C149_extensions`, `C149_blank_false` |
| C150 | partial | `Model/Answer` (dispatcher and response) and `Model/Send` (client), between them a specification of what HTTP carries (`Delivered`) | composition of C97 (what is queued) and C110 (what the client stores from what libcurl hands over). **False** in general: `C150_blank_false` (a value that begins with a blank arrives without it) | `C150_arrives_partial`, `C150_value`, `C150_blank_false` |
| C151 | partial | `Model/Send` (client), `Model/Endpoint` `collect` (server), between them the texts as in C107 and C108 (`Spec/Curl`) | composition of C107 and C108 (what the peer reads) with C23 (what is collected), `HeadersReported` says what libmicrohttpd reports. **False** in general: `C151_case_false`, and `C107_…_false`, `C108_…_false` | `C151_headers_partial`, `C151_cookies_partial`, `C151_case_false` |
| C152 | partial | `Model/WsReaders`: the threads as small-step programs over one socket, byte by byte, with `read_lock`, `connected` and `message_previous` (src/u_websocket.c:437-566, 674-792, 1507-1538); a call that reads byte by byte refines `readMessage` of `Model/Frame` (`feeds_message`) | invariant over all executions: the holder of the lock has read a prefix of the next frame, which determines its state; the results so far are the frames so far. A second invariant ties the effects to the messages the thread of the websocket got. **False** for messages in fragments: `C152_fragment_false`, a schedule in which "pay 1|00| EUR" is delivered as "pay 1 EUR" | `C152_frames`, `C152_effects`, `C152_messages_partial`, `C152_fragment_false` |
| C153 | partial | `Model/WsLists`: push and pop statement by statement, any number of threads (src/u_websocket.c:1298-1311, 1640-1657). Allocations succeed; a statement is atomic, which C does not promise | invariant over all executions in which no two calls overlap: the list is what was put minus what was taken, up to the statements the one active call has done. **False** otherwise: `C153_lost_false` (a message lost, the length too large for the block), `C153_stray_false` (the next pop reads behind the block), `C153_pop_false` (a pop during a push: write behind the block) | `C153_queue_partial`, `C153_lost_false`, `C153_stray_false`, `C153_pop_false` |
| C154 | partial | `Model/SockAddr`: the copy of the address (src/ulfius.c:530-535), `get_ip_source` (example_callbacks/iddawc_jwt_profile/iddawc_resource.c:42-55); `Spec/SockAddr`: the layout of `struct sockaddr_in` and `sockaddr_in6` on Linux, `inet_ntoa` | computation for every IPv4 address; injectivity of the dotted text. **False** for every IPv6 client: `C154_v6_false` (the block ends inside the address), `C154_same_false` and `C154_mapped_false` (clients of one network, and all IPv4 clients of an instance that listens to both, look the same), `C154_flow_false` (shown as 0.0.0.0); `C154_forwarded_false`: with X-Forwarded-For the client chooses what is shown | `C154_v4_partial`, `C154_shown_partial`, `C154_v6_false`, `C154_same_false`, `C154_mapped_false`, `C154_forwarded_false`, `C154_flow_false` |
| C155 | partial | the options given to libcurl (C106), the field libcurl makes of them and how a server reads it (`Spec/Base64`: RFC 4648 and RFC 7617, with the round trip proved in `Lemmas/Base64`), the assignment in the dispatcher (src/ulfius.c:634), the callbacks of auth_server.c:73-94 | composition of C106 with the round trip of base64; the example by evaluation of the dispatcher of C97. **False**: `C155_colon_false` (user dom:joe arrives as dom), `C155_websocket_false` (the field of a websocket has the scheme "Basic:", see C124) | `C155_credentials_partial`, `C155_colon_false`, `C155_websocket_false`, `C155_example` |
| C156 | partial | composition of the models of C106, C107, C151 (client), C28 (body at the server), C114 (JSON bodies), C150 (answer). The JSON library is outside: the claims are about the text it makes and gets | the content type arrives once (C151) and the body whole (C28), so the parser gets the text; back: C150. **False**: `C156_limit_false` (a longer value is cut silently), `C156_form_false` (form parameters replace the value) | `C156_request_partial`, `C156_response_partial`, `C156_limit_false`, `C156_form_false` |
| C157 | partial | `Model/Website`: the callback of example_callbacks/static_file with the content of the files, the media types and the response; the file system (realpath, access, fopen) is a parameter. The stream is read as libmicrohttpd does (`Spec/Stream`): any sizes of buffers up to the block size, until the announced size is reached | composition with the dispatcher (C97) and the client (C150); the body by induction on the series of reads, in both directions (it ends, and it is the file). **False**: `C157_encoded_false` (the URL is not decoded), `C157_directory_false` (a directory is opened and announced, and nothing ever comes), `C157_forbidden_false` (200 with an empty body) | `C157_file_partial`, `C157_missing_partial`, `C157_encoded_false`, `C157_directory_false`, `C157_forbidden_false` |
| C158 | partial | `Model/Website`: the compressed website callback with its two caches (as `u_map`), the disk and zlib as parameters, together with the uncompressed callback it falls back to | invariant on the caches (each entry undoes to the file of a name that means the same file), kept by every request; then the answer from cache, from zlib, or as a stream (C157), and the way through the dispatcher to the client. **False**: `C158_stale_false` (a file that changes), `C158_directory_false` (unread memory is sent), `C158_growth_false` (one copy for each spelling of a name), `C158_long_false` (length cast to 32 bits) | `C158_page_partial`, `C158_arrives_partial`, `C158_missing_partial`, `C158_stale_false`, `C158_directory_false`, `C158_growth_false`, `C158_long_false` |
| C159 | partial | `Model/WebsiteThreads`: look-up, lock, `u_map_put_binary` statement by statement, with unwritten array slots; any number of threads and any schedule | invariant that fixes the whole map by the statement the lock holder is at; an execution without undefined behaviour gives the whole file or nothing (`C159_answers_partial`); with look-ups apart from changes, or with a warm cache, nothing undefined happens and every answer is whole. **False**: `C159_empty_false`, `C159_stray_false` (the look-up is outside the lock) | `C159_answers_partial`, `C159_apart_partial`, `C159_warm_partial`, `C159_empty_false`, `C159_stray_false` |
| C160 | partial | `Model/Proxy`: `callback_get` of the proxy example on the models of `ulfius_duplicate_request`, `ulfius_send_http_request` and `ulfius_copy_response`; libcurl and libmicrohttpd as in C106 and C97 | the copied request is followed through the options given to libcurl (C106, C107); the answer through the parser of the client (C110), the copy and the dispatcher to any client (C150). **False**: `C160_query_false` (parameters twice), `C160_host_false` (`host` in lower case is passed on), `C160_unreachable_false` (every unreachable origin is a 200), `C160_coding_false` (decoded body announced as coded), `C160_cookie_false` (cookies twice), `C160_length_false` (headers lost behind a refused one) | `C160_request_partial`, `C160_answer_partial`, `C160_unreachable_false`, `C160_query_false`, `C160_host_false`, `C160_coding_false`, `C160_cookie_false`, `C160_length_false` |
| C161 | partial | all setters of `Model/Message` in any order, the dispatcher of `Model/Answer`, the client of C110 | an interpreter of the calls that knows nothing of maps and blocks (`Reply.calls`) is related to the response by an invariant kept by every call; options by C113, cookies by C31 and C32, then the dispatcher and the client (C150). **False**: `C161_stream_false` (a body given after a stream is not sent, the stream is) | `C161_program_partial`, `C161_stream_false` |
| C162 | partial | `Model/WsPair`: two endpoints with the loop of `ulfius_thread_websocket` and the wait for the answer to a close frame, over `readMessage`, `handle` and `sendFragmented` of `Model/Frame`; programs that send and signal; a network that delays. Messages are written and read in one step (C138, C69), not fragmented, close frames are sent by the loops only (C152) | an invariant for each way: the unread bytes are frames, and what was heard followed by what they carry up to a close frame is what was spoken (`C162_messages`, `C162_answered`, `C162_delivered`; `C162_reason`: nothing ends unless a program asks for it); a measure that every round lowers (`C162_deadline`: 13 rounds, `C162_follows`). **False** that nothing is lost: `C162_slow_false` (the closing end waits for 11 polls of 50 ms; a peer busy for longer sees the hang-up before the messages that arrived), `C162_closer_false` (messages on their way to the end that closes are read and dropped) | `C162_messages`, `C162_reason`, `C162_answered`, `C162_delivered`, `C162_deadline`, `C162_follows`, `C162_slow_false`, `C162_closer_false` |
| C163 | partial | `Model/WsService`: the connection of `Model/WsPair` where the callback of one end is called with each message and then sends its answers, one step each, while its loop waits and everything else goes on | refinement: the callback is a program of C162 that sends, with the invariant that what was sent and what is still to be sent are the answers to what was heard; `C163_all` with the rounds that bring the rest. **False** for a peer that closes: `C163_closed_false` | `C163_replies`, `C163_all`, `C163_before`, `C163_echo`, `C163_closed_false` |
| C164 | proved | `Model/WsPacked`: the connection of `Model/WsPair` with `permessage-deflate` of `Model/DeflateData` at both ends, each with its context for sending and for receiving; zlib is a parameter | simulation: next to the compressed conversation runs the one without extensions, and what is on the way in one is, frame by frame, what is on the way in the other, readable with the context of the receiver (`Chain`), which brings it in step with the sender. So the logs are equal (`C164_transparent`) and the theorems of C162 apply | `C164_transparent`, `C164_messages`, `C164_delivered`, `C164_ends` |
| C165 | partial | `Model/Shared`: callbacks as programs of calls on the response run by `Answer.dispatch`, with a record of what is handed over, read and freed | invariant through all branches of the dispatcher: what was handed over is what was freed and what is still owed; reads see the newest data. **False**: `U_OPT_SHARED_DATA` drops the old data and leaves their function to the new ones; data set again are freed and kept; without an answer (default endpoint with an unknown code) nothing is freed | `C165_freed_partial`, `C165_never_early_partial`, `C165_read_partial`, `C165_option_false`, `C165_again_false`, `C165_unknown_false` |
| C166 | partial | `Model/Cert`: certificate objects as a list with made/filled/freed states (use after free is undefined), the pointer through dispatcher, copy, export, import, clean, and the callback of auth_server.c; GnuTLS is a parameter | simulation of all sequences of actions by a list of what each request shows; ownership invariant for the freeing. **False**: an import that fails leaves a pointer to a freed object; one object per duplicate leaks, and the replaced one; a refused PEM text leaves an empty certificate | `C166_shown_partial`, `C166_freed_partial`, `C166_example_partial`, `C166_import_false`, `C166_leak_false`, `C166_replace_false`, `C166_empty_false` |
| C167 | partial | `Model/Session`: the callback of the cookie test page, its `strtol` to `int` conversion, and the client that copies response cookies to `map_cookie`; dispatch, answer, client and request as in C108, C110 and C67; libcurl and HTTP are the specification `Jarred`, `Delivered`, `CookiesReported` | composition: the cookie list is a permutation of what the Set-Cookie lines tell, put over the older cookies, read back from the Cookie line; induction over the visits. **False**: a cookie with an empty value (use after free in the client), the counter 2147483647 (signed overflow in the server) | `C167_back_partial`, `C167_counts_partial`, `C167_overflow_false`, `C167_empty_false` |
| C168 | partial | `Model/Sheep`: the three callbacks with their shared number, followed by the compression callback in the dispatcher; the endpoints of the example; the memory accesses of simultaneous callbacks as steps of threads. The JSON parser and zlib are parameters | composition of dispatch, C115 and C131 along a series of requests; matching computed for the endpoints; invariant over all interleavings (a number never exceeds the stores made). **False**: lost updates, the number of another client, overflow | `C168_counts_partial`, `C168_calls_partial`, `C168_race_partial`, `C168_alone_partial`, `C168_lost_false`, `C168_other_false`, `C168_overflow_false` |
| C169 | partial | Matching (`Model/Endpoint`, with every result qsort may give) followed by the dispatcher (`Model/Answer`) on the callbacks of the selected endpoints; `Model/Multiple`: the endpoints and callbacks of the example | the position of the guard in a list in the order of priorities, C19, C24 and C97; the example by computing the match for every path. **False**: a guard of the same priority; a stream before the guard ends the chain with 200; in the example POST and all methods but GET and PUT get the data without check | `C169_guard_partial`, `C169_refusal_partial`, `C169_example_partial`, `C169_equal_false`, `C169_stream_false`, `C169_methods_false` |
| C170 | proved | `Model/Multiple`: the ten endpoints, the callbacks, the default endpoint and header, and the life of `response->shared_data` (NULL, live, freed; reading or freeing it at another time is recorded as undefined) | matching is computed for every path by cases on its segments, the sort is unique because the priorities that match differ, the chain is run by `dispatch_goes` | `C170_levels`, `C170_other`, `C170_nothing` |
| C171 | partial | `Model/Pages`: print_map with its blocks (`o_malloc`, `o_realloc`, `strcat`, `int` lengths; writing past a block is undefined), the callbacks, endpoints, default endpoint and header of simple_example.c, with matching (`Model/Endpoint`), the map of URL parameters and the dispatcher (`Model/Answer`) | print_map by induction over the entries; matching by cases on the number of segments; the page is stated as a list of lines. **False**: forged entries through line breaks, NULL values shown as (null), texts of 2 GiB | `C171_list_partial`, `C171_one`, `C171_page_partial`, `C171_else`, `C171_forged_false`, `C171_absent_false`, `C171_large_false` |
| C172 | partial | `Model/StreamExample`: the two callbacks, the two readers (the file may change between two reads), endpoints and default header of stream_example.c, with matching and the dispatcher; what libmicrohttpd does with a reader is `Spec/Stream` (`Completes`, and `CompletesIn` with a condition on the buffers) | Invariant: what was sent is a prefix of the text at a line end, of the file at any place; both directions (nothing else can be sent, and this can). **False**: small buffers, files that change or shrink, directories | `C172_stream`, `C172_text_partial`, `C172_audio_partial`, `C172_file_partial`, `C172_missing`, `C172_else`, `C172_buffer_false`, `C172_stuck_false`, `C172_changed_false`, `C172_shrunk_false`, `C172_directory_false` |
| C173 | partial | `Model/WsEnd`: the thread of the websocket (its loop, each pass of `read_data_from_socket` with its poll as a step of its own, `connected` and `ret` as separate variables, the join, the onclose callback), the manager callback (asks for the status, sends, returns), close signals, bytes and hang-ups, in any interleaving; sends do not block, the callback for messages returns, no TLS | A rank that no action raises and every step of the thread lowers, except in the two stuck states; infinite fair executions. The reads and the handling are proved equal to `Model/Frame` (`reads_readMessage`, `handleFlags_handle`). **False**: a silent peer in the middle of a frame; a final frame inside a fragmented message with a manager callback | `C173_signal_partial`, `C173_returned_partial`, `C173_lost_partial`, `C173_talking_partial`, `C173_once`, `handleFlags_handle`, `reads_readMessage`, `C173_silent_false`, `C173_fragment_false` |
| C174 | partial | `Model/WsAwait`: the reading of the answer, one `poll` at a time, with passes that bring nothing, a byte, a failed read, or the end of the connection; `conclude` is the rest of the function. The connection itself (`poll`, `read`, TLS) is only its results | A simulation between the passes and `Handshake.nextLine`/`headerLoop` (strong induction on the events), then C54. **False**: a silent server, a connection whose reads fail (a loop without a pause), an answer without end, a refusal whose connection is closed before it is read | `C174_lost_partial`, `C174_answer_partial`, `C174_silent_false`, `C174_errors_false`, `C174_endless_false`, `C174_refusal_false` |
| C175 | proved | `Model/Injection`: an instance with its list, the answers it can give for any callbacks (`Answer.dispatch`), and the injection example with its five callbacks and its three changes | The selected endpoints are the sorted ones among those meant for the request (C19); designated endpoints are meant for the same requests; two runs of a history, with and without the endpoint, keep lists that differ only in it. The example by cases over its stages, for all URLs and methods | `C175_add`, `C175_remove`, `C175_back`, `C175_example`, `C175_example_else`, `C175_twin_false` |
| C176 | partial | `Model/Alloc`: which family of functions makes and which releases each block that crosses the border between ulfius and jansson, curl or libmicrohttpd, for programs made of eleven kinds of steps. Trusted: how curl counts its initialisations and that a handle comes from calloc | The blocks in use are computed from the trace; between steps they are the bodies held, all of the family of `o_malloc`, and curl has the functions of libc; induction over the program. The five failures by short programs | `C176_default`, `C176_own_partial`, `C176_credentials_false`, `C176_form_false`, `C176_json_false`, `C176_old_false`, `C176_curl_false`, `C176_close_false` |
| C177 | partial | `Model/Oom`: maps and responses with a name for each allocation, any of which may fail (a parameter that sees the name and the number of the request). Not modelled: removing entries, the websocket part of a response beyond its two blocks, the texts local to `ulfius_export_response_http`. Expectations in `Spec/Oom` | Counting invariant as for C130 (each block is owned by one field, the arrays hold NULL behind the last entry, an array exists when there are cookies), kept by each function also when it fails; induction over the program. False at each other place: a table of programs, checked by computation for all places | `C177_partial`, `C177_unharmed_partial`, `C177_others_false`, `C177_map_false`, `C177_forgotten_false`, `C177_response_false`, `C177_answer_false`, `C177_damage_false` |
| C178 | partial | `Model/OomDispatch`: splitting of the URL and of the formats, the loop over the endpoints, sorting, the copy of an endpoint and the default endpoint, with a name for each allocation, any of which may fail; an array reallocated from NULL has entries nobody wrote, reading them is undefined. What is lost (leaks) and what happens inside `ulfius_parse_url` and the callbacks when memory fails there is not modelled. Expectations in `Spec/OomDispatch` on top of `Spec/Routing` | Induction over the words and over the list of endpoints: what is split, what the array holds and where its entries come from. The other places where memory can run out: concrete tables and URLs, checked by computation, for every sorting function | `C178_partial`, `C178_method_partial`, `C178_url_partial`, `C178_prefix_partial`, `C178_guard_false`, `C178_url_false`, `C178_crash_false`, `C178_default_false`, `C178_parameter_false` |
| C179 | partial | `Model/OomRead`: filling the maps of a request from the pairs libmicrohttpd reads, the look at the content type, the parts of the body and the copy of the query parameters, on the concrete maps of `Model/UMap` with failing allocations. Not modelled: forms, failing initialisation of the maps, a failing copy of the query parameters | Induction over the pairs with the abstraction of the maps to lists of pairs (the function that collects them in C23 is what is read when nothing fails); induction over the parts of the body. False: concrete requests, checked by computation | `C179_partial`, `C179_whole_partial`, `C179_missing_false`, `C179_joined_false`, `C179_crash_false` |
| C180 | partial | `Model/FileUpload` and `Model/Upload`: `mhd_iterate_post_data` with the whole upload around it, for every list of calls of the iterator | Induction over the calls: nothing touches the parameter before the file, and afterwards values only grow at the end, behind the NUL. False: concrete forms, checked by computation | `C180_partial`, `C180_forged_false`, `C180_binary_false` |
| C181 | partial | `Model/OomRequest` on the heap and maps of `Model/Oom`: the functions on requests, `ulfius_uri_logger`, the first call of the dispatcher and `mhd_request_completed`, with a name for every allocation and a choice of which fail. Not modelled: the client certificate, `u_map_remove_*`, the post processor | A counting invariant (every live block is owned exactly once) preserved by every call as long as only the places the code deals with fail. False: a program for each other place, checked by computation | `C181_partial`, `C181_unharmed_partial`, `C181_others_false`, `C181_init_false`, `C181_map_false`, `C181_body_false`, `C181_duplicate_false`, `C181_connection_false` |
| C182 | partial | `Model/OomInstance` on the heap and maps of `Model/Oom`: init and clean of an instance, adding, removing and copying endpoints, the default endpoint, and the walk through the list at a request, with a name for every allocation and a choice of which fail; elements of the list nobody wrote are junk. Not modelled: failing mutexes, the allocations of the matching (C178) | A counting invariant with the contents of the list, preserved by every call as long as only the places the code deals with fail; the loop of `ulfius_remove_endpoint` by induction from the end of the list. False: a program for each other place, checked by computation | `C182_partial`, `C182_others_false`, `C182_refused_false`, `C182_end_false`, `C182_changed_false`, `C182_lost_false`, `C182_wrong_false`, `C182_init_false` |
| C183 | partial | `Model/OomWs` on the heap of `Model/Oom`: the manager and its lists, reading, merging and delivering messages, the extensions, building and sending, push, pop and clear, with a name for every allocation and a choice of which fail. Simplified: frames arrive whole, what extensions answer is given, the text of a close is not sent along, everything written is sent | A counting invariant (every live block is owned exactly once) together with the messages kept, preserved by every event as long as only the places the code deals with fail. False: a connection for each other place, checked by computation | `C183_partial`, `C183_others_false`, `C183_null_false`, `C183_list_false`, `C183_sent_false`, `C183_fragment_false` |
| C184 | partial | `Model/OomSend`: the functions of `Model/Client` and `Model/Send` again, with a name for every allocation of the library and a choice of which fail (place and turn of the loop). The allocations inside `curl_easy_setopt` are those of the parameter `Curl.accepts`; Orcania functions answer NULL on failure, `mstrcatf` of NULL starts a new text. Not modelled: which blocks are lost; several allocations with one consequence share a name | Compared step by step with `Model/Send`: each step gives the same, gives up, or leaves a URL that is none (`Near`, `Like`, `Fair`). With nothing failing it is `Model/Send` (C184_enough). False: one request that uses everything, one failure at each other place, checked by computation | `C184_partial`, `C184_streaming_partial`, `C184_enough`, `C184_others_false`, `C184_credentials_false`, `C184_verb_false`, `C184_form_false`, `C184_header_false`, `C184_response_false` |
| C185 | partial | `Model/OomMail`: `Model/Mail` again, with a name for every allocation and a choice of which fail; the allocations inside `curl_easy_setopt` are those of `Curl.accepts` | By cases along the function, compared with `Model/Mail`. The envelope holds without exception. False: `cc_str` NULL is printed as (null), by computation | `C185_partial`, `C185_enough`, `C185_envelope`, `C185_text_false` |
| C186 | partial | `Model/OomForm`: `mhd_iterate_post_data` without upload callback on the model of u_map.c with its failing allocations, and the upload calls of the dispatcher; the post processor makes no call after MHD_NO | By induction over the blocks: the structure stands for a list of parameters (`Lemmas/OomForm`), which also shows that Model/Upload is what u_map.c computes. The spec (`Spec/OomForm`) builds the value of each name from the blocks alone. False: by computation | `C186_partial`, `C186_enough`, `C186_cut_false`, `C186_value_false`, `C186_name_false`, `C186_array_false` |
| C187 | partial | `Model/OomActive`: the table of active websockets with failing `o_realloc`, the events that change it, and the two loops of `ulfius_stop_framework`; calls one after the other (interleavings with memory enough: C58, C81, C83) | By induction over the events: the table lists exactly what the spec derives from the events (`Spec/OomActive`), or, once a failure lost the pointer, stays unusable. `C187_defined` is an equivalence | `C187_stop_partial`, `C187_defined`, `C187_stop_false`, `C187_wait_false`, `C187_first_false`, `C187_code_false` |
| C188 | partial | `Model/StreamData` over `Model/Answer`: callbacks are programs of calls that may look at anything they read; the dispatcher is that of C97 with a look at the MHD responses it makes and destroys; libmicrohttpd calls the function that frees the data when the response is destroyed | invariants of the loop (the MHD response has exactly the data handed over) and of the fallback, for all programs; `streamServe_answer` shows that the observation changes no answer. **False**: `C188_replaced_false`, `C188_fallback_false` (the default endpoint streams after all others ignored the request: empty body, the data are never freed), `C188_ignored_false`, `C188_block_false` | `C188_freed_partial`, `C188_default_partial`, `C188_never_twice`, `C188_sent`, `C188_replaced_false`, `C188_fallback_false`, `C188_ignored_false`, `C188_block_false` |
| C189 | partial | Model/MapList.lean: the enumerations give the arrays of the map itself, identified by the number of their block; changes of the map as in Model/UMap.lean say when the blocks move (o_realloc is taken to move each time); u_map_clean_enum marks an array as freed; u_map_clean ends the program. The specification (Spec/MapList.lean) gives every list its own copy. | Simulation with the ideal insertion-ordered map by induction on the program, with the invariant that a list still kept by the map has the block of the map and its snapshot is the list of the ideal map. C189_shown: both lists after every history. C189_careful_partial: careful programs. False: C189_free_false for EVERY program that frees a list; C189_copy_false and C189_stale_false with concrete programs. | `C189_shown`, `C189_careful_partial`, `C189_free_false`, `C189_copy_false`, `C189_stale_false` |
| C190 | partial | Model/OomHandshake.lean: src/ulfius.c:665-840 with every allocation of the handshake as a choice (some per item of the offer), on top of the decision of Model/Handshake.lean; outcome: answer, calls of the onclose callback, memory nobody frees, registration. split_string gives all pieces or none; what a copy of the request holds is C181. | C190_enough: without failures it is the handshake of C53. C190_refused_or_same_partial by induction over the loops (negotiation, list match, first match) and cases over the places that fail. C190_never_more without hypotheses. False: C190_websocket_false (NULL websocket read for the onclose callback), C190_lists_false (an uninitialised pointer is freed), C190_response_false (leak), C190_status_false, C190_accept_false, C190_extension_false (extension enabled but not announced), C190_offer_false, C190_list_false, C190_protocol_false. | `C190_refused_or_same_partial`, `C190_never_more`, `C190_enough`, `C190_websocket_false`, `C190_lists_false`, `C190_response_false`, `C190_status_false`, `C190_accept_false`, `C190_extension_false`, `C190_offer_false`, `C190_list_false`, `C190_protocol_false` |
| C191 | partial | Model/OomAnswer.lean: src/ulfius.c:254-280 and 617-634, 842-1042 with every allocation as a choice; callbacks are any functions of the response they find. No streams and no websockets. Spec/AnswerMem.lean says which answer a chain of callbacks asks for, without the dispatcher. | C191_enough: with memory, the answer of the specification, nothing lost. C191_answer_partial: the loop decides as the specification does (induction over the chain), then cases over the places that fail. C191_freed. False: C191_defaults_false, C191_line_false, C191_unauthorized_false, C191_refusal_line_false, C191_fallback_false, C191_leak_false. | `C191_answer_partial`, `C191_enough`, `C191_freed`, `C191_defaults_false`, `C191_line_false`, `C191_unauthorized_false`, `C191_refusal_line_false`, `C191_fallback_false`, `C191_leak_false` |
| C192 | partial | Model/OomOpen.lean: src/u_websocket.c:861-1043, 2535-2645 for a well-formed URL and an established connection, with every allocation as a choice (per line of the request and of the reply); the maps are those of Model/UMap with the failing allocation of u_map_put as an argument. | C192_enough: without failures it is the opening of Model/WsOpen. C192_same_or_error_partial by cases over the places. C192_agreed, without hypotheses, by an invariant over the header loop. False: C192_credentials_false, C192_line_false, C192_protocol_false, C192_extension_false, C192_request_false, C192_response_false, C192_lists_false. | `C192_same_or_error_partial`, `C192_agreed`, `C192_enough`, `C192_credentials_false`, `C192_line_false`, `C192_protocol_false`, `C192_extension_false`, `C192_request_false`, `C192_response_false`, `C192_lists_false` |
| C193 | partial | Model/OomDeflate.lean: src/u_websocket.c:338-395, 1543-1580, 1961-2049, one extension, no fragments, with every allocation made for a message as a choice; zlib is a parameter with the laws Lossless (as in C102) and Resets (a full flush forgets the history). | C193_lost_alone_partial by induction over the messages with the invariant that the streams are in step; the hypotheses are met by echoZlib (echoZlib_lossless, echoZlib_resets). False: C193_history_false and C193_pending_false (with that zlib), C193_empty_false (with every zlib). | `C193_lost_alone_partial`, `C193_history_false`, `C193_pending_false`, `C193_empty_false` |
| C194 | partial | Model/OomInflate.lean: src/u_websocket.c:589-652, 722-760, 2048-2130 for whole binary messages and one extension, with every allocation made for a message as a choice and the number of blocks lost; zlib is a parameter with the law Lossless, as in C102. | C194_until by induction over the messages, with the streams in step as invariant. C194_freed_partial by induction, for every zlib. False: C194_leak_false, with echoZlib of C193. | `C194_until`, `C194_freed_partial`, `C194_leak_false` |
| C195 | partial | Model/Types.lean: static_compressed_inmemory_website_callback.c:236-296, 378, the array of types cell by cell, with its size, the blocks lost, and every allocation as a choice; string_array_has_value and free_string_array of orcania from their documentation. | C195_types_partial by induction over the calls with the invariant that the array is the types and a NULL. False: C195_copy_false, C195_array_false, C195_unwritten_false. | `C195_types_partial`, `C195_copy_false`, `C195_array_false`, `C195_unwritten_false` |
| C196 | partial | Model/IdSetup.lean: iddawc_resource.c:198-230 with every step as a choice, in front of the callback of Model/Token (116-196); iddawc is a parameter. | C196_setup_partial: the realm has no part in letting a request through (cases over the callback), the rest of the configuration is what was asked. False: C196_audience_false, C196_scope_false, C196_root_false, by evaluation. | `C196_setup_partial`, `C196_audience_false`, `C196_scope_false`, `C196_root_false` |
| C197 | partial | Model/OomMatch.lean: u_websocket.c:2129-2275 and 2652-2755 with every allocation as a choice, on top of the parameters of Model/Deflate; what stays allocated is counted. zlib: whether its two initialisations succeed, fail before or after the first block. | C197_server_partial, C197_client_partial: the loop over the parameters keeps an error once there is one, and without error is that of Model/Deflate (induction); the answer is whole or begins with a semicolon (invariant of the four additions). False: C197_leak_false, C197_zlib_false, C197_answer_false, by evaluation. | `C197_server_partial`, `C197_client_partial`, `C197_leak_false`, `C197_zlib_false`, `C197_answer_false` |
| C198 | partial | Model/OomRegister.lean: u_websocket.c:64-96, 1844-1959, 2449-2533 and u_response.c:351-356 with every allocation as a choice; a text is NULL, there, or freed with its address kept; lost blocks are counted. | C198_server_partial, C198_client_partial: against an inductive specification of sequences of calls (what is registered changes only with U_OK), by induction over the sequence. False: C198_twice_false, C198_forgets_false, C198_name_false, C198_leak_false, C198_client_false, C198_context_false, by evaluation. | `C198_server_partial`, `C198_client_partial`, `C198_twice_false`, `C198_forgets_false`, `C198_name_false`, `C198_leak_false`, `C198_client_false`, `C198_context_false` |
| C199 | partial | Model/OomCompress.lean: http_compression_callback.c:66-140 with every allocation as a choice; zlib is a parameter. | C199_memory_partial: the callback is that of Model/Compress with a zlib that also fails when a block cannot be had (induction over the loop), so C131_compression_partial applies. False: C199_body_false, C199_header_false, C199_leak_false, by evaluation. | `C199_memory_partial`, `C199_body_false`, `C199_header_false`, `C199_leak_false` |
| C200 | partial | Model/OomStatic.lean: static_file_callback.c:126-208 with every allocation as a choice, on the file system of Model/Website. | C200_root: case analysis over the callback, for all memories. C200_file_partial, C200_missing_partial: through the lemmas of C157. False: seven witnesses, by evaluation. | `C200_root`, `C200_file_partial`, `C200_missing_partial`, `C200_url_false`, `C200_index_false`, `C200_path_false`, `C200_open_false`, `C200_type_false`, `C200_text_false`, `C200_location_false` |
| C201 | partial | Model/OomWebsite.lean: static_compressed_inmemory_website_callback.c:160-234 and 298-505 with every allocation as a choice, on the file system and the caches of Model/Website. Lost buffers are not counted. | C201_later_partial: the invariant of C158 (every entry of a cache is a compressed file) is kept by every request whatever fails, by induction over the series; then the page theorem of C158. False: five witnesses, by evaluation. | `C201_later_partial`, `C201_cache_false`, `C201_url_false`, `C201_empty_false`, `C201_coding_false`, `C201_path_false` |
| C202 | partial | Model/WsExample.lean: websocket_server.c:143-324 (three endpoints, the block of user data of each request and what each callback does with it) on the lives of Model/WsServe, any number of websockets interleaved. Not modelled: the texts of the log, and the failing thread (undefined behaviour, C127). | C202_safe: projection of an interleaving on each websocket, then the shape of a life (nothing, or events without onclose and then onclose and the end). C202_freed_partial: the same with whole lives. C202_leak_false: any number of lost requests, each keeps its block. | `C202_safe`, `C202_freed_partial`, `C202_leak_false` |
| C203 | partial | Model/MgrWait.lean: u_websocket.c:571-587, 660-819, 2318-2348 as two threads, the callback any program over sends, looks and waits; the two manager callbacks of websocket_server.c:167-234 as instances. What ends the loop is one action; status_lock is left out. | C203_ends_partial: an invariant (timed waits, onclose after the return) and a measure that every action lowers once the websocket is closed. C203_forever_false: induction over the actions, for all callbacks. C203_unmerged_false: for any number of seconds. | `C203_ends_partial`, `C203_example_partial`, `C203_onclose`, `C203_forever_false`, `C203_waits_false`, `C203_unmerged_false` |
| C204 | partial | Model/CleanMap.lean: u_map.c:70-87 with its walk over the arrays, 528-535; the other functions are those of Model/UMap. | C204_renew_partial: induction over the series of calls with the simulation of C07. False: C204_used_false and C204_count_false for all maps, C204_twice_false for all maps that held something. | `C204_renew_partial`, `C204_used_false`, `C204_twice_false`, `C204_count_false` |
| C205 | partial | Model/StreamClient.lean: u_send_request.c:608-622 on top of the transfer of Model/Send, with the defaults libcurl documents for CURLOPT_WRITEFUNCTION and CURLOPT_WRITEDATA; stream_client.c:25-38. | C205_function_partial, C205_none: the options of every transfer, by cases over ulfius_send_http_streaming_request_max_header. C205_print_partial, C205_sizes: induction over the chunks. False: C205_null_false and C205_nofunction_false for all transfers; C205_behind_false, C205_overread_false, C205_binary_false for all chunks of their kind. | `C205_function_partial`, `C205_none`, `C205_null_false`, `C205_nofunction_false`, `C205_print_partial`, `C205_sizes`, `C205_behind_false`, `C205_overread_false`, `C205_binary_false` |
| C206 | partial | Model/ReadFile.lean: read_file of auth_server.c:46-67, simple_example.c:79-100 and websocket_server.c:37-58, and the start of the three programs (simple_example.c:135-140, websocket_server.c:102-112, auth_server.c:154-156) with the start functions of Model/Instance. | C206_read_partial, C206_text_partial: arithmetic of the block, for all contents. C206_start_partial, C206_https, C206_secure_partial, C206_clients_partial: on top of C63. False: C206_plain_false and C206_clients_false for all instances, C206_pipe_false, C206_overflow_false, C206_short_false, C206_directory_false for all files of their kind. | `C206_read_partial`, `C206_text_partial`, `C206_none`, `C206_start_partial`, `C206_https`, `C206_secure_partial`, `C206_clients_partial`, `C206_short_false`, `C206_pipe_false`, `C206_overflow_false`, `C206_directory_false`, `C206_plain_false`, `C206_clients_false` |
| C207 | partial | Model/PutFile.lean: test_u_map.c:56-87 with the files of Model/ReadFile and the maps of Model/UMap. | C207_found_partial: C10 with one block. C207_unread: by cases. False: C207_again_false, C207_offset_false and C207_short_false for all maps. | `C207_found_partial`, `C207_unread`, `C207_again_false`, `C207_offset_false`, `C207_short_false` |

## Axioms

From `#print axioms` on every theorem of `MANIFEST.json`. No theorem depends on any other axiom.

* **Classical.choice, Quot.sound, propext** (341): `C05_utf8_exact`, `C05_utf8Ok`, `C06_utf8_position`, `C07_refines_ordered_map`, `C08_keys_unique`, `C09_memory_safe_partial`, `C10_blocks_concatenate`, `C11_length_partial`, `C12_case_insensitive`, `C13_copy_exact`, `C14_copy_into_partial`, `C15_case_partial`, `C15_prefix_partial`, `C15_binary_partial`, `C16_failed_put_partial`, `C17_format_match`, `C18_slashes`, `C19_selection`, `C20_selectable_partial`, `C20_selectable_false`, `C21_remove`, `C21_remove_params`, `C22_params_partial`, `C22_params_value_partial`, `C23_collect_partial`, `C24_chain`, `C24_chain_answer`, `C25_position`, `C26_status_partial`, `C27_default_partial`, `C28_body`, `C28_chunking`, `C29_value_partial`, `C29_ascii_partial`, `C29_limit_breaks_utf8_false`, `C31_cookies`, `C31_both`, `C32_set_cookie_partial`, `C33_duplicate_partial`, `C33_cookie_false`, `C34_duplicate_partial`, `C35_second_export_false`, `C36_absolute_partial`, `C36_relative`, `C37_split_path_partial`, `C37_query_partial`, `C39_headers`, `C40_payload`, `C41_cookies_partial`, `C41_use_after_free_false`, `C41_empty_value_false`, `C42_url_partial`, `C42_fragment_false`, `C66_form`, `C67_cookie_partial`, `C67_list_partial`, `C67_flags_false`, `C67_sample_false`, `C43_round_trip`, `C44_rfc_partial`, `C45_one_frame_partial`, `C45_fragmented_false`, `C46_reassembly`, `C46_every_stream`, `C47_text_is_utf8`, `C48_after_frame`, `C48_after_control`, `C48_after_disconnection`, `C49_masking`, `C50_rsv_partial`, `C50_overlap_false`, `C50_control_false`, `C69_segmentation`, `C70_before_hangup_partial`, `C70_hangup_false`, `C71_uninitialised_partial`, `C72_pong`, `C74_not_sent_false`, `C75_sent_partial`, `C78_incoming_partial`, `C78_closing_false`, `C52_disjoint`, `C53_upgrade`, `C54_opens_partial`, `C54_first_line`, `C54_status`, `C54_accept_ignored_false`, `C54_one_mark_false`, `C54_truncated_false`, `C56_uniform`, `C56_alphabet_uniform`, `C61_match_partial`, `C61_accepts`, `C79_agree`, `C79_same_bit`, `C80_anywhere_partial`, `C58_empty_partial`, `C58_progress_partial`, `C58_returns_partial`, `C59_safe_partial`, `C59_complete_partial`, `C81_flag_partial`, `C82_window_partial`, `C83_returns_partial`, `C83_lost_false`, `C62_init`, `C62_initIpv6`, `C62_started_partial`, `C62_accepts`, `C63_tls`, `C63_others`, `C65_serves`, `C87_ipv4`, `C87_ipv6`, `C88_life_partial`, `C89_name_partial`, `C91_case_partial`, `C91_prefix_partial`, `C92_accepted_partial`, `C92_unique`, `C93_response_partial`, `C94_body_partial`, `C94_form_partial`, `C94_end_false`, `C95_answer`, `C96_every_item_partial`, `C96_unasked_false`, `C97_answer_partial`, `C98_refused_partial`, `C99_stream_partial`, `C100_upgrade_partial`, `C101_defaults_partial`, `C105_tls`, `C106_request_partial`, `C106_head_false`, `C107_headers_partial`, `C108_cookies_partial`, `C109_family_partial`, `C109_family_false`, `C110_response_partial`, `C111_errors_partial`, `C111_cookie_false`, `C111_sample_false`, `C112_options_partial`, `C112_last_partial`, `C113_options`, `C114_round_trip_partial`, `C115_media_partial`, `C116_error_partial`, `C120_request_partial`, `C120_case_false`, `C120_injection_false`, `C120_params_false`, `C121_prepared_partial`, `C121_spelling_false`, `C122_tls`, `C122_other`, `C123_connect_partial`, `C123_port_false`, `C124_credentials_partial`, `C124_basic_false`, `C124_request_false`, `C125_closed_partial`, `C125_resolve_false`, `C125_tls_false`, `C125_extension_false`, `C126_register_partial`, `C128_memory_partial`, `C129_memory_partial`, `C130_memory_partial`, `C131_compression_partial`, `C131_encoded_false`, `C131_long_false`, `C132_oauth2_partial`, `C132_oidc_partial`, `C133_oauth2_partial`, `C133_oidc_partial`, `C134_oauth2_partial`, `C134_oidc_partial`, `C134_iddawc_partial`, `C135_iddawc_partial`, `C136_proof_partial`, `C137_memory_partial`, `C138_whole`, `C138_serial_partial`, `C138_returns_partial`, `C138_delivered_partial`, `C139_snapshot_partial`, `C139_answered_partial`, `C139_memory_partial`, `C139_empty_false`, `C140_memory_partial`, `C141_round_trip_partial`, `C141_scalar_false`, `C144_list`, `C144_remove_by_val`, `C144_remove_params`, `C146_options_partial`, `C146_refused`, `C147_url_partial`, `C147_value_partial`, `C147_form_partial`, `C148_files_partial`, `C148_body_false`, `C149_opens_partial`, `C149_extensions`, `C149_blank_false`, `C150_arrives_partial`, `C150_value`, `C151_headers_partial`, `C151_cookies_partial`, `C152_frames`, `C152_effects`, `C152_messages_partial`, `C152_fragment_false`, `C153_queue_partial`, `C154_shown_partial`, `C154_forwarded_false`, `C154_flow_false`, `C155_credentials_partial`, `C155_websocket_false`, `C156_request_partial`, `C156_response_partial`, `C157_file_partial`, `C157_missing_partial`, `C158_page_partial`, `C158_arrives_partial`, `C158_missing_partial`, `C158_growth_false`, `C158_long_false`, `C160_request_partial`, `C160_answer_partial`, `C160_unreachable_false`, `C161_program_partial`, `C162_messages`, `C162_reason`, `C162_answered`, `C162_delivered`, `C162_deadline`, `C162_follows`, `C163_replies`, `C163_all`, `C163_before`, `C163_echo`, `C164_transparent`, `C164_messages`, `C164_delivered`, `C164_ends`, `C167_back_partial`, `C167_counts_partial`, `C167_empty_false`, `C168_counts_partial`, `C169_guard_partial`, `C169_refusal_partial`, `C169_example_partial`, `C169_methods_false`, `C170_levels`, `C170_other`, `C170_nothing`, `C171_one`, `C171_page_partial`, `C171_else`, `C171_large_false`, `C172_stream`, `C172_audio_partial`, `C172_file_partial`, `C172_missing`, `C172_else`, `C172_directory_false`, `C173_signal_partial`, `C173_returned_partial`, `C173_lost_partial`, `C173_talking_partial`, `C174_lost_partial`, `C174_answer_partial`, `C175_add`, `C175_remove`, `C175_back`, `C175_example`, `C175_example_else`, `C175_twin_false`, `C176_default`, `C176_own_partial`, `C176_form_false`, `C176_json_false`, `C177_partial`, `C177_unharmed_partial`, `C178_partial`, `C178_url_partial`, `C178_prefix_partial`, `C178_guard_false`, `C178_url_false`, `C178_default_false`, `C179_partial`, `C179_whole_partial`, `C180_partial`, `C181_partial`, `C181_unharmed_partial`, `C182_partial`, `C182_others_false`, `C183_partial`, `C184_others_false`, `C186_partial`, `C186_enough`, `C187_stop_partial`, `C187_defined`, `C187_stop_false`, `C187_wait_false`, `C187_code_false`, `C188_freed_partial`, `C188_default_partial`, `C188_never_twice`, `C188_sent`, `C189_shown`, `C189_careful_partial`, `C192_agreed`, `C193_lost_alone_partial`, `C194_until`, `C199_memory_partial`, `C199_body_false`, `C200_file_partial`, `C200_missing_partial`, `C201_later_partial`, `C202_safe`, `C203_onclose`, `C204_renew_partial`, `C205_print_partial`, `C205_behind_false`, `C205_binary_false`, `C206_text_partial`, `C206_start_partial`, `C206_https`, `C206_secure_partial`, `C206_clients_partial`, `C206_overflow_false`, `C206_plain_false`, `C206_clients_false`, `C207_found_partial`, `C207_again_false`, `C207_offset_false`, `C207_short_false`

* **Quot.sound, propext** (303): `C01_decode_encode`, `C02_encode_alphabet`, `C02_encode_unreserved`, `C03_decode_safe`, `C04_decode_spec`, `C09_false_value_search`, `C14_false`, `C16_false_new_key`, `C16_false_existing_key`, `C20_add`, `C22_params_false`, `C23_collect_false`, `C29_upload_callback`, `C29_chunking_false`, `C29_empty_first_false`, `C33_duplicate_false`, `C34_binary_false`, `C35_export_partial`, `C38_body_limit`, `C44_opcodes`, `C44_rfc_false`, `C44_masked_false`, `C51_fifo`, `C71_heap_bytes_false`, `C73_outgoing_partial`, `C73_opcode_false`, `C74_progress_partial`, `C74_whole_partial`, `C75_inverse_partial`, `C76_user_data_false`, `C76_same_data_partial`, `C77_clear_false`, `C55_subprotocol`, `C56_key`, `C56_alphabet`, `C57_deadline`, `C61_window8_false`, `C61_misspelt_false`, `C80_absent`, `C80_later_false`, `C58_wakeup`, `C58_bounded`, `C58_late_false`, `C60_asleep_partial`, `C60_open`, `C60_running`, `C81_keep_partial`, `C81_upgrade_false`, `C81_late_false`, `C84_clear_partial`, `C85_careful_partial`, `C85_reusable`, `C62_fresh`, `C62_defined`, `C63_options`, `C64_overflow_false`, `C64_empty_partial`, `C65_down_partial`, `C86_refused_partial`, `C90_leak_false`, `C91_overread_false`, `C93_trailer_false`, `C93_nul_false`, `C93_injection_false`, `C94_blank_false`, `C94_path_false`, `C94_entry_false`, `C95_names_partial`, `C95_blank_false`, `C102_round_trip_partial`, `C102_huge_false`, `storedZlib_lossless`, `C103_readable_partial`, `C103_empty_false`, `C104_receive_partial`, `C104_final_false`, `C107_blank_false`, `C107_injection_false`, `C107_duplicate_false`, `C108_lost_false`, `C108_injection_false`, `C108_null_false`, `C109_sample_false`, `C110_stale_false`, `C110_redirect_false`, `C117_connection_partial`, `C117_documented_false`, `C119_result_partial`, `C121_key`, `C126_context_false`, `C127_onclose_partial`, `C128_copy_false`, `C128_import_false`, `C128_twice_false`, `C128_into_false`, `C128_init_false`, `C129_cookie_false`, `C129_fetch_false`, `C129_into_false`, `C129_twice_false`, `C130_certificate_false`, `C130_answer_false`, `C130_refused_false`, `C130_default_false`, `C130_parameter_false`, `C132_scope_false`, `C133_client_false`, `C133_scopeless_false`, `C133_overflow_false`, `C133_scheme_false`, `C134_expired_false`, `C134_missing_false`, `C134_realm_false`, `C134_silent_false`, `C135_spelling_false`, `C137_bits_false`, `C137_protocol_false`, `C137_answer_false`, `C137_field_false`, `C137_queue_false`, `C137_ignore_false`, `C137_certificate_false`, `C137_list_false`, `C138_race_false`, `C138_order_false`, `C138_close_false`, `C139_moved_false`, `C139_removed_false`, `C139_both_false`, `C140_header_false`, `C140_cookie_false`, `C140_value_false`, `C140_again_false`, `C140_certificate_false`, `C140_mail_false`, `C141_refused`, `C142_typed_partial`, `C142_long_false`, `C142_end_false`, `C143_shown_partial`, `C143_huge_false`, `C144_add_by_val`, `C145_logged_partial`, `C147_question_false`, `C147_part_false`, `C148_nameless_false`, `C151_case_false`, `C153_pop_false`, `C154_v4_partial`, `C154_v6_false`, `C154_same_false`, `C154_mapped_false`, `C155_example`, `C156_form_false`, `C157_encoded_false`, `C157_directory_false`, `C158_stale_false`, `C158_directory_false`, `C159_answers_partial`, `C159_apart_partial`, `C159_warm_partial`, `C160_query_false`, `C160_host_false`, `C160_coding_false`, `C160_cookie_false`, `C160_length_false`, `C162_slow_false`, `C162_closer_false`, `C163_closed_false`, `C165_freed_partial`, `C165_never_early_partial`, `C165_read_partial`, `C166_shown_partial`, `C166_freed_partial`, `C166_example_partial`, `C168_calls_partial`, `C168_race_partial`, `C168_overflow_false`, `C169_equal_false`, `C171_list_partial`, `C172_text_partial`, `C172_buffer_false`, `C172_changed_false`, `C172_shrunk_false`, `C173_once`, `handleFlags_handle`, `reads_readMessage`, `C173_silent_false`, `C173_fragment_false`, `C174_silent_false`, `C174_errors_false`, `C174_endless_false`, `C174_refusal_false`, `C176_credentials_false`, `C176_old_false`, `C177_others_false`, `C177_map_false`, `C177_forgotten_false`, `C177_response_false`, `C177_answer_false`, `C177_damage_false`, `C178_method_partial`, `C178_crash_false`, `C178_parameter_false`, `C179_missing_false`, `C179_joined_false`, `C179_crash_false`, `C180_forged_false`, `C180_binary_false`, `C181_others_false`, `C181_init_false`, `C181_map_false`, `C181_body_false`, `C181_duplicate_false`, `C181_connection_false`, `C182_refused_false`, `C182_end_false`, `C182_changed_false`, `C182_lost_false`, `C182_wrong_false`, `C182_init_false`, `C183_others_false`, `C183_null_false`, `C183_list_false`, `C183_sent_false`, `C183_fragment_false`, `C184_partial`, `C184_streaming_partial`, `C184_enough`, `C184_credentials_false`, `C184_verb_false`, `C184_form_false`, `C184_header_false`, `C184_response_false`, `C185_envelope`, `C186_cut_false`, `C186_value_false`, `C186_name_false`, `C186_array_false`, `C189_free_false`, `C190_refused_or_same_partial`, `C190_never_more`, `C190_enough`, `C190_websocket_false`, `C190_lists_false`, `C190_response_false`, `C190_status_false`, `C190_accept_false`, `C190_extension_false`, `C190_offer_false`, `C190_list_false`, `C190_protocol_false`, `C191_answer_partial`, `C191_enough`, `C192_same_or_error_partial`, `C192_enough`, `C192_credentials_false`, `C192_line_false`, `C192_protocol_false`, `C192_extension_false`, `C192_request_false`, `C192_response_false`, `C192_lists_false`, `C193_history_false`, `C193_pending_false`, `C193_empty_false`, `C194_freed_partial`, `C194_leak_false`, `C195_types_partial`, `C196_setup_partial`, `C196_audience_false`, `C196_scope_false`, `C196_root_false`, `C197_server_partial`, `C197_client_partial`, `C197_leak_false`, `C197_zlib_false`, `C197_answer_false`, `C198_server_partial`, `C198_client_partial`, `C199_header_false`, `C199_leak_false`, `C201_cache_false`, `C201_url_false`, `C201_empty_false`, `C201_coding_false`, `C201_path_false`, `C202_freed_partial`, `C202_leak_false`, `C203_ends_partial`, `C203_example_partial`, `C204_twice_false`, `C205_function_partial`, `C205_none`, `C205_null_false`, `C205_nofunction_false`, `C205_sizes`, `C205_overread_false`, `C206_read_partial`, `C206_none`, `C206_short_false`, `C206_pipe_false`, `C207_unread`

* **propext** (123): `C09_false_null_value`, `C09_false_wrap`, `C11_false`, `C15_false`, `C26_status_false`, `C27_set`, `C27_default_false`, `C30_response`, `C30_request`, `C34_address_false`, `C36_port_overflow_false`, `C36_port_wrap_false`, `C39_malformed_false`, `C68_mail_partial`, `C74_prefix`, `C60_closed`, `C82_quiet_partial`, `C85_close_false`, `C85_retry_false`, `C85_null_false`, `C62_blank_false`, `C63_refused`, `C65_prefix_partial`, `C65_cache_partial`, `C65_sibling_false`, `C86_twice_false`, `C88_clean_false`, `C88_remove_false`, `C89_inside_partial`, `C90_closed_partial`, `C91_prefix_false`, `C92_port_false`, `C92_host_false`, `C97_fallback_false`, `C98_truncated_false`, `C99_fallback_false`, `C99_block_false`, `C100_ignored_false`, `C101_errors_false`, `C112_own_false`, `C112_append_false`, `C112_timeout_false`, `C114_spelling_false`, `C115_case_false`, `C115_other_false`, `C116_several_false`, `C116_response_false`, `C117_unchecked_false`, `C117_user_false`, `C118_recipients`, `C119_subject_false`, `C119_type_false`, `C121_own_false`, `C127_messages`, `C127_response_false`, `C127_lost_false`, `C127_thread_false`, `C127_status_false`, `C136_many_false`, `C136_age_false`, `C143_nul_false`, `C146_extension_false`, `C146_cluster_false`, `C148_set`, `C150_blank_false`, `C155_colon_false`, `C156_limit_false`, `C157_forbidden_false`, `C159_empty_false`, `C159_stray_false`, `C161_stream_false`, `C165_option_false`, `C165_again_false`, `C165_unknown_false`, `C166_import_false`, `C166_leak_false`, `C166_replace_false`, `C166_empty_false`, `C167_overflow_false`, `C169_stream_false`, `C171_forged_false`, `C171_absent_false`, `C172_stuck_false`, `C176_curl_false`, `C176_close_false`, `C185_partial`, `C185_enough`, `C185_text_false`, `C187_first_false`, `C188_replaced_false`, `C188_fallback_false`, `C188_ignored_false`, `C188_block_false`, `C189_copy_false`, `C189_stale_false`, `C191_freed`, `C191_defaults_false`, `C191_line_false`, `C191_unauthorized_false`, `C191_refusal_line_false`, `C191_fallback_false`, `C191_leak_false`, `C195_copy_false`, `C195_array_false`, `C195_unwritten_false`, `C198_twice_false`, `C198_forgets_false`, `C198_leak_false`, `C198_client_false`, `C198_context_false`, `C200_root`, `C200_url_false`, `C200_index_false`, `C200_path_false`, `C200_open_false`, `C200_type_false`, `C200_text_false`, `C200_location_false`, `C203_forever_false`, `C203_waits_false`, `C203_unmerged_false`, `C204_used_false`, `C206_directory_false`

* **no axiom** (30): `C15_null`, `C30_response_refused`, `C30_stream`, `C32_max_age_false`, `C37_split_zero_false`, `C37_query_truncated_false`, `C68_injection_false`, `C77_empty_partial`, `C59_overflow_false`, `C59_doubleFree_false`, `C59_remove_false`, `C60_missed_false`, `C60_spurious_false`, `C60_server_false`, `C82_clean_false`, `C84_early_false`, `C62_options_false`, `C89_prefix_false`, `C142_last_false`, `C142_quit_false`, `C142_nul_false`, `C142_fragment_false`, `C145_percent_false`, `C153_lost_false`, `C153_stray_false`, `C168_alone_partial`, `C168_lost_false`, `C168_other_false`, `C198_name_false`, `C204_count_false`
