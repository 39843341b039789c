{"id": "C01", "title": "URL encode/decode round trip", "statement": "ulfius_url_decode(ulfius_url_encode(s)) returns s byte for byte, for every C string s (any bytes 1..255).", "quantifier": "every NUL-free byte string of any length", "why_tests_cant": "the input space is unbounded and the failing inputs are rare shapes a sampled test does not hit", "anchors": ["src/ulfius.c:ulfius_url_encode", "src/ulfius.c:ulfius_url_decode"]}
{"id": "C02", "title": "URL encode output alphabet and size", "statement": "ulfius_url_encode never emits a byte outside alphanumerics, $-_.!*'(),, '+', '%' and upper-case hex digits, every '%' is followed by exactly two hex digits, never writes past the 3n+1 bytes it allocates, and two different inputs have different encodings.", "quantifier": "every NUL-free byte string of any length", "why_tests_cant": "the input space is unbounded and the failing inputs are rare shapes a sampled test does not hit", "anchors": ["src/ulfius.c:ulfius_url_encode", "src/ulfius.c:to_hex"]}
{"id": "C03", "title": "URL decode is memory safe and total", "statement": "For every C string, including malformed percent sequences at the very end, ulfius_url_decode reads only inside the string and its terminator, writes only inside the buffer it allocates, terminates, and returns a string no longer than the input.", "quantifier": "every NUL-free byte string of any length", "why_tests_cant": "out-of-bounds accesses on malformed tails do not show in tests without instrumentation", "anchors": ["src/ulfius.c:ulfius_url_decode", "src/ulfius.c:from_hex"]}
{"id": "C04", "title": "URL decode is the inverse of percent-decoding as specified", "statement": "On every well-formed input (each '%' followed by two hex digits of either case, none being %00) ulfius_url_decode yields exactly the percent-decoded byte string with '+' read as space; lower and upper case hex digits are equivalent.", "quantifier": "every well-formed encoded string", "why_tests_cant": "the input space is unbounded and the failing inputs are rare shapes a sampled test does not hit", "anchors": ["src/ulfius.c:ulfius_url_decode"]}
{"id": "C05", "title": "UTF-8 validation is exact", "statement": "utf8_check accepts a byte string if and only if it is the UTF-8 encoding of some sequence of Unicode scalar values (no overlong forms, no surrogates, nothing above U+10FFFF).", "quantifier": "every byte string of any length", "why_tests_cant": "2^32 four-byte patterns and any length; a wrong boundary accepts or rejects a handful of them", "anchors": ["src/ulfius.c:utf8_check"]}
{"id": "C06", "title": "UTF-8 validation reports the first offending position", "statement": "When utf8_check rejects, the position it returns splits the input into a valid UTF-8 prefix and a remainder that does not start with a valid character, and no byte after the given length is read.", "quantifier": "every byte string and every length", "why_tests_cant": "the input space is unbounded and the failing inputs are rare shapes a sampled test does not hit", "anchors": ["src/ulfius.c:utf8_check"]}
{"id": "C07", "title": "u_map behaves as an insertion-ordered map", "statement": "For every sequence of u_map_put, u_map_remove_from_key, u_map_remove_at, u_map_empty, every u_map_get, u_map_has_key, u_map_count and u_map_enum_keys answers as a plain insertion-ordered association map: the last value put under a key is the one read, other keys are unaffected.", "quantifier": "every finite history of calls with arbitrary C-string keys and values", "why_tests_cant": "histories of calls are unbounded; the state left by one history decides whether a later call is right", "anchors": ["src/u_map.c:u_map_put", "src/u_map.c:u_map_get", "src/u_map.c:u_map_remove_from_key", "src/u_map.c:u_map_remove_at", "src/u_map.c:u_map_empty", "src/u_map.c:u_map_has_key", "src/u_map.c:u_map_count", "src/u_map.c:u_map_enum_keys"]}
{"id": "C08", "title": "u_map keys are unique and never empty", "statement": "In every state reachable through the public functions no two entries have the same key, no key is empty, and u_map_count equals the number of entries.", "quantifier": "every finite history of public calls", "why_tests_cant": "histories of calls are unbounded; the state left by one history decides whether a later call is right", "anchors": ["src/u_map.c:u_map_put_binary", "src/u_map.c:u_map_count"]}
{"id": "C09", "title": "u_map operations are memory safe", "statement": "No history of public u_map calls with valid arguments reads or writes outside the memory owned by the map.", "quantifier": "every finite history of public calls, all offsets and lengths", "why_tests_cant": "heap overflows are silent in most test runs and depend on the earlier history", "anchors": ["src/u_map.c:u_map_put_binary", "src/u_map.c:u_map_copy", "src/u_map.c:u_map_get"]}
{"id": "C10", "title": "Chunked binary writes assemble the concatenation", "statement": "Writing a value in consecutive blocks with u_map_put_binary at increasing offsets stores exactly the concatenation of the blocks, with u_map_get_length equal to the total, for any way of cutting the value into blocks.", "quantifier": "every byte string and every partition into blocks", "why_tests_cant": "the number of partitions is exponential", "anchors": ["src/u_map.c:u_map_put_binary", "src/u_map.c:u_map_get_length"]}
{"id": "C11", "title": "Replacing a value replaces its length", "statement": "After u_map_put replaces an existing value, u_map_get_length reports the length of the new value.", "quantifier": "every pair of old and new value", "why_tests_cant": "needs the overwrite of a longer value by a shorter one", "anchors": ["src/u_map.c:u_map_put_binary", "src/u_map.c:u_map_get_length"]}
{"id": "C12", "title": "Case-insensitive functions treat keys as header names", "statement": "u_map_get_case, u_map_has_key_case, u_map_count_keys_case and u_map_remove_from_key_case act on exactly the entries whose key equals the argument up to ASCII case, get_case returning the oldest of them, and removal leaving all other entries in order.", "quantifier": "every map and key", "why_tests_cant": "the input space is unbounded and the failing inputs are rare shapes a sampled test does not hit", "anchors": ["src/u_map.c:u_map_get_case", "src/u_map.c:u_map_has_key_case", "src/u_map.c:u_map_remove_from_key_case", "src/u_map.c:u_map_count_keys_case"]}
{"id": "C13", "title": "u_map_copy is an exact copy", "statement": "u_map_copy yields a map with the same keys in the same order, the same lengths and the same bytes, including binary values.", "quantifier": "every map reachable by public calls", "why_tests_cant": "histories of calls are unbounded; the state left by one history decides whether a later call is right", "anchors": ["src/u_map.c:u_map_copy"]}
{"id": "C14", "title": "u_map_copy_into overrides and preserves", "statement": "After u_map_copy_into(dest, source), dest holds source's value for every key of source and its own former value for every other key, including binary values.", "quantifier": "every pair of maps", "why_tests_cant": "binary values with embedded NUL are the failing shape", "anchors": ["src/u_map.c:u_map_copy_into"]}
{"id": "C15", "title": "Value search matches whole values", "statement": "u_map_has_value(map, v) is true exactly when some entry's value equals v (for u_map_has_value_case: equals v up to ASCII case), and neither reads outside the stored value.", "quantifier": "every map and value", "why_tests_cant": "a prefix match passes every positive test; the over-read is silent", "anchors": ["src/u_map.c:u_map_has_value", "src/u_map.c:u_map_has_value_binary", "src/u_map.c:u_map_remove_from_value", "src/u_map.c:u_map_has_value_case"]}
{"id": "C16", "title": "A failed u_map_put leaves the map intact", "statement": "When u_map_put_binary returns U_ERROR_MEMORY the map still answers every query as before the call.", "quantifier": "every map, every call and every allocation that may fail in it", "why_tests_cant": "allocation failures at a chosen point are not produced by tests", "anchors": ["src/u_map.c:u_map_put_binary"]}
{"id": "C17", "title": "URL format matching follows the documented rule", "statement": "A URL path matches an endpoint format iff segment by segment each format segment is equal to the URL segment or begins with ':' or '@', with equal numbers of segments, except that a last format segment beginning with '*' matches any remainder.", "quantifier": "every URL and every format", "why_tests_cant": "the input space is unbounded and the failing inputs are rare shapes a sampled test does not hit", "anchors": ["src/u_request.c:ulfius_url_format_match", "src/u_request.c:ulfius_split_url"]}
{"id": "C18", "title": "Slashes are separators only", "statement": "Leading, trailing and repeated slashes in the URL path never change which endpoints match nor the values of the URL parameters.", "quantifier": "every URL and every format", "why_tests_cant": "the input space is unbounded and the failing inputs are rare shapes a sampled test does not hit", "anchors": ["src/u_request.c:ulfius_split_url"]}
{"id": "C19", "title": "Endpoint selection is sound, complete and ordered", "statement": "The endpoints selected for a request are exactly the registered endpoints whose method (case-insensitively, or '*') and format match, each once, in non-decreasing priority number.", "quantifier": "every endpoint list, method and URL, any tie order of the sort", "why_tests_cant": "the input space is unbounded and the failing inputs are rare shapes a sampled test does not hit", "anchors": ["src/u_request.c:ulfius_endpoint_match", "src/u_request.c:compare_endpoint_priorities"]}
{"id": "C20", "title": "Every successfully added endpoint can be selected", "statement": "If ulfius_add_endpoint returned U_OK for an endpoint and it was not removed, a request that matches it selects it.", "quantifier": "every history of additions", "why_tests_cant": "histories of calls are unbounded; the state left by one history decides whether a later call is right", "anchors": ["src/ulfius.c:ulfius_add_endpoint", "src/ulfius.c:ulfius_is_valid_endpoint", "src/u_request.c:ulfius_endpoint_match"]}
{"id": "C21", "title": "Removing an endpoint removes exactly it", "statement": "ulfius_remove_endpoint removes exactly the endpoints with the same method, prefix and format (up to surrounding slashes), keeps all others in order, and returns U_ERROR_NOT_FOUND iff there was none.", "quantifier": "every endpoint list and every argument", "why_tests_cant": "histories of calls are unbounded; the state left by one history decides whether a later call is right", "anchors": ["src/ulfius.c:ulfius_remove_endpoint"]}
{"id": "C22", "title": "URL parameters are taken from the aligned segments", "statement": "For a request that matched an endpoint, the value of parameter name is the percent-decoded URL segment at the position of ':name' (or '@name'), comma-joined in order when the name occurs several times.", "quantifier": "every matching pair of URL and format", "why_tests_cant": "the input space is unbounded and the failing inputs are rare shapes a sampled test does not hit", "anchors": ["src/u_request.c:ulfius_parse_url"]}
{"id": "C23", "title": "Repeated query, header or cookie keys are comma-joined in order", "statement": "After all (key,value) pairs of a request were collected, each key maps to the comma-joined list of its valid values in arrival order; with UTF-8 checking on, pairs with invalid UTF-8 are ignored and never affect others.", "quantifier": "every sequence of pairs", "why_tests_cant": "the input space is unbounded and the failing inputs are rare shapes a sampled test does not hit", "anchors": ["src/ulfius.c:ulfius_fill_map_check_utf8", "src/ulfius.c:ulfius_fill_map"]}
{"id": "C24", "title": "Callbacks run in order until one stops the chain", "statement": "For a request, the selected callbacks are run in order, each at most once, up to and including the first that returns something other than CONTINUE or IGNORE, or that turned the answer into a stream or a websocket; none runs afterwards.", "quantifier": "every list of callbacks and every return values", "why_tests_cant": "chains of any length with any return codes", "anchors": ["src/ulfius.c:ulfius_webservice_dispatcher"]}
{"id": "C25", "title": "callback_position counts the previous non-ignored callbacks", "statement": "Each callback sees callback_position equal to the number of callbacks that ran before it and did not return U_CALLBACK_IGNORE.", "quantifier": "every list of callbacks and return values", "why_tests_cant": "the input space is unbounded and the failing inputs are rare shapes a sampled test does not hit", "anchors": ["src/ulfius.c:ulfius_webservice_dispatcher"]}
{"id": "C26", "title": "Outcome of the callback chain decides the HTTP status", "statement": "A chain stopped by UNAUTHORIZED answers 401, by ERROR or an unknown code 500, no matching endpoint and no default endpoint 404, otherwise the status set by the callbacks.", "quantifier": "every list of callbacks and return values", "why_tests_cant": "the input space is unbounded and the failing inputs are rare shapes a sampled test does not hit", "anchors": ["src/ulfius.c:ulfius_webservice_dispatcher"]}
{"id": "C27", "title": "The default endpoint runs exactly when nothing else handled the request, and once", "statement": "The default endpoint's callback, the one given last to ulfius_set_default_endpoint with its user data, runs once iff no endpoint matched or every matching callback returned IGNORE; otherwise never.", "quantifier": "every configuration", "why_tests_cant": "the input space is unbounded and the failing inputs are rare shapes a sampled test does not hit", "anchors": ["src/ulfius.c:ulfius_webservice_dispatcher", "src/ulfius.c:ulfius_set_default_endpoint"]}
{"id": "C28", "title": "The request body is the prefix of what was sent", "statement": "The body given to callbacks is the concatenation of the uploaded chunks cut to max_post_body_size (everything when 0), independently of how the network cut it into chunks.", "quantifier": "every byte string, limit and partition into chunks", "why_tests_cant": "partitions are chosen by the network", "anchors": ["src/ulfius.c:ulfius_webservice_dispatcher"]}
{"id": "C29", "title": "Form parameters do not depend on chunking", "statement": "The value of a form parameter given to callbacks is the same however the library was handed its bytes: the whole value cut to max_post_param_size.", "quantifier": "every value, limit and partition into chunks", "why_tests_cant": "partitions are chosen by the network; the failing one cuts a multi-byte character", "anchors": ["src/ulfius.c:mhd_iterate_post_data"]}
{"id": "C30", "title": "Body setters store exactly the given body", "statement": "After ulfius_set_string_body/binary_body/empty_body on a request or response the stored body and length are exactly the ones given, whatever was there before, and on refused arguments the former body stays. After ulfius_set_stream_response the status and the stream are the ones given and the former body is gone.", "quantifier": "every former state and argument", "why_tests_cant": "the input space is unbounded and the failing inputs are rare shapes a sampled test does not hit", "anchors": ["src/u_request.c:ulfius_set_string_body_request", "src/u_request.c:ulfius_set_binary_body_request", "src/u_response.c:ulfius_set_string_body_response", "src/u_response.c:ulfius_set_binary_body_response", "src/u_response.c:ulfius_set_stream_response"]}
{"id": "C31", "title": "Response cookies are unique by key, last write wins", "statement": "After any sequence of ulfius_add_cookie_to_response / same_site variants, the response has one cookie per key in order of first insertion, holding the attributes of the last accepted call.", "quantifier": "every sequence of calls", "why_tests_cant": "histories of calls are unbounded; the state left by one history decides whether a later call is right", "anchors": ["src/u_response.c:ulfius_add_cookie_to_response", "src/u_response.c:ulfius_add_same_site_cookie_to_response"]}
{"id": "C32", "title": "Set-Cookie header carries all attributes unambiguously", "statement": "The generated Set-Cookie value determines name, value, expires, max-age, domain, path, secure, httponly and samesite whenever the strings hold no ';'.", "quantifier": "every cookie", "why_tests_cant": "the input space is unbounded and the failing inputs are rare shapes a sampled test does not hit", "anchors": ["src/u_response.c:ulfius_generate_cookie_header"]}
{"id": "C33", "title": "Duplicating a response gives an equal response", "statement": "ulfius_duplicate_response of an initialised response succeeds and gives the same status, headers, cookies and body.", "quantifier": "every response reachable by the public setters", "why_tests_cant": "histories of calls are unbounded; the state left by one history decides whether a later call is right", "anchors": ["src/u_response.c:ulfius_copy_response", "src/u_response.c:ulfius_copy_cookie", "src/u_response.c:ulfius_duplicate_response"]}
{"id": "C34", "title": "Duplicating a request gives an equal request", "statement": "ulfius_duplicate_request gives a request with the same verb, url, parameters (including binary ones), cookies, headers and body.", "quantifier": "every request reachable by the public setters", "why_tests_cant": "histories of calls are unbounded; the state left by one history decides whether a later call is right", "anchors": ["src/u_request.c:ulfius_copy_request", "src/u_request.c:ulfius_duplicate_request"]}
{"id": "C35", "title": "Exporting a request does not change it", "statement": "ulfius_export_request_http takes a const request: calling it twice gives the same text.", "quantifier": "every request", "why_tests_cant": "mutation through a const pointer shows only on a second use", "anchors": ["src/u_request.c:ulfius_export_request_http", "src/yuarel.c:yuarel_parse"]}
{"id": "C36", "title": "URL decomposition is faithful", "statement": "yuarel_parse of scheme://[user:pass@]host[:port][/path][?query][#fragment] recovers each component, for all components without the delimiters of their position.", "quantifier": "every component strings", "why_tests_cant": "the input space is unbounded and the failing inputs are rare shapes a sampled test does not hit", "anchors": ["src/yuarel.c:yuarel_parse"]}
{"id": "C37", "title": "Path and query splitting are faithful", "statement": "yuarel_split_path returns the non-empty segments in order up to the maximum and yuarel_parse_query the key/value pairs in order up to the maximum, never writing past the caller's array.", "quantifier": "every path, query and array size", "why_tests_cant": "the input space is unbounded and the failing inputs are rare shapes a sampled test does not hit", "anchors": ["src/yuarel.c:yuarel_split_path", "src/yuarel.c:yuarel_parse_query"]}
{"id": "C38", "title": "HTTP client body limit", "statement": "The response body kept by ulfius_send_http_request_with_limit is the first min(limit, total) bytes of the body (all when limit is 0), for any chunking by libcurl.", "quantifier": "every body, limit and partition", "why_tests_cant": "partitions are chosen by the network", "anchors": ["src/u_send_request.c:ulfius_write_body"]}
{"id": "C39", "title": "HTTP client headers are merged case-insensitively", "statement": "After the header lines of a response were received (well-formed lines: a name, ':', a value, a line end; and lines without ':'), map_header has one entry per header name up to case, whose value is the comma-joined list of the values in order, no more than max_header header lines are ever stored, and protocol is the status text.", "quantifier": "every sequence of well-formed header lines and every limit", "why_tests_cant": "the input space is unbounded and the failing inputs are rare shapes a sampled test does not hit", "anchors": ["src/u_send_request.c:write_header"]}
{"id": "C40", "title": "SMTP payload is sent completely", "statement": "The concatenation of the blocks handed to libcurl by the mail body source is the whole payload, whatever buffer sizes libcurl offers, and the source then reports the end.", "quantifier": "every payload and every sequence of buffer sizes", "why_tests_cant": "buffer sizes are chosen by libcurl", "anchors": ["src/u_send_request.c:smtp_payload_source"]}
{"id": "C41", "title": "Received cookies are stored without memory errors", "statement": "For every cookie list sent by a server the HTTP client stores the cookies without touching freed memory.", "quantifier": "every list of cookie lines", "why_tests_cant": "use after free on a second cookie with an empty field is silent", "anchors": ["src/u_send_request.c:ulfius_send_http_streaming_request_max_header"]}
{"id": "C42", "title": "Request URL carries every parameter exactly once", "statement": "The URL built by the HTTP client is the given URL followed by all parameters of map_url in order, escaped, separated by '?' or '&', such that splitting and unescaping gives the parameters back.", "quantifier": "every URL and parameter map", "why_tests_cant": "the input space is unbounded and the failing inputs are rare shapes a sampled test does not hit", "anchors": ["src/u_send_request.c:ulfius_send_http_streaming_request_max_header"]}
{"id": "C43", "title": "WebSocket frame round trip", "statement": "A message sent unfragmented by one ulfius endpoint is read by the other with the same opcode, flags and payload, masked or not, for every payload shorter than 4 GiB.", "quantifier": "every opcode, rsv, mask and payload", "why_tests_cant": "length boundaries 125/126/65535/65536 times masks times contents", "anchors": ["src/u_websocket.c:ulfius_build_frame", "src/u_websocket.c:ulfius_read_incoming_message"]}
{"id": "C44", "title": "WebSocket frames follow RFC 6455 framing", "statement": "The bytes produced for an unfragmented message are the RFC 6455 section 5.2 frame for every payload length.", "quantifier": "every payload length up to 2^63", "why_tests_cant": "the input space is unbounded and the failing inputs are rare shapes a sampled test does not hit", "anchors": ["src/u_websocket.c:ulfius_build_frame"]}
{"id": "C45", "title": "Fragmented messages are reassembled", "statement": "A message sent with ulfius_websocket_send_fragmented_message is delivered by the receiving ulfius endpoint as one message with the same opcode and payload.", "quantifier": "every payload and fragment length", "why_tests_cant": "the input space is unbounded and the failing inputs are rare shapes a sampled test does not hit", "anchors": ["src/u_websocket.c:ulfius_build_frame", "src/u_websocket.c:ulfius_build_message", "src/u_websocket.c:ulfius_thread_websocket"]}
{"id": "C46", "title": "Received fragments are delivered as the concatenation", "statement": "Without extensions, the messages delivered by the receive loop for a stream of frames are exactly those of the RFC 6455 reassembly rule, control frames interleaved anywhere included.", "quantifier": "every sequence of frames", "why_tests_cant": "the input space is unbounded and the failing inputs are rare shapes a sampled test does not hit", "anchors": ["src/u_websocket.c:ulfius_thread_websocket", "src/u_websocket.c:ulfius_merge_fragmented_message"]}
{"id": "C47", "title": "Delivered text is valid UTF-8", "statement": "Every TEXT message delivered to the incoming-message callback is valid UTF-8.", "quantifier": "every sequence of frames", "why_tests_cant": "the input space is unbounded and the failing inputs are rare shapes a sampled test does not hit", "anchors": ["src/u_websocket.c:ulfius_thread_websocket"]}
{"id": "C48", "title": "Nothing is delivered after the end of a connection", "statement": "After a close frame, a protocol error or a disconnection, the receive loop ends and delivers no further message.", "quantifier": "every sequence of frames", "why_tests_cant": "the input space is unbounded and the failing inputs are rare shapes a sampled test does not hit", "anchors": ["src/u_websocket.c:ulfius_thread_websocket"]}
{"id": "C49", "title": "Masking is enforced by role", "statement": "A server only delivers data of masked frames, a client only data of unmasked frames.", "quantifier": "every byte stream", "why_tests_cant": "the input space is unbounded and the failing inputs are rare shapes a sampled test does not hit", "anchors": ["src/u_websocket.c:ulfius_read_incoming_message"]}
{"id": "C50", "title": "Unnegotiated RSV bits are refused", "statement": "A message with an RSV bit outside the negotiated ones is never delivered.", "quantifier": "every frame and negotiated set", "why_tests_cant": "the input space is unbounded and the failing inputs are rare shapes a sampled test does not hit", "anchors": ["src/u_websocket.c:ulfius_thread_websocket"]}
{"id": "C51", "title": "The message history is FIFO", "statement": "Popping from a message list returns the messages in the order they were pushed, each once, and the length is pushes minus successful pops.", "quantifier": "every history of pushes and pops", "why_tests_cant": "histories of calls are unbounded; the state left by one history decides whether a later call is right", "anchors": ["src/u_websocket.c:ulfius_push_websocket_message", "src/u_websocket.c:ulfius_websocket_pop_first_message"]}
{"id": "C52", "title": "Enabled extensions use disjoint RSV bits", "statement": "After negotiation, two enabled extensions never share an RSV bit and the set of expected bits is exactly the union of their bits.", "quantifier": "every extension list and client offer", "why_tests_cant": "the input space is unbounded and the failing inputs are rare shapes a sampled test does not hit", "anchors": ["src/ulfius.c:ulfius_webservice_dispatcher", "src/u_websocket.c:ulfius_websocket_connection_handshake"]}
{"id": "C53", "title": "Server handshake acceptance", "statement": "The server upgrades a connection iff the request is a GET over HTTP/1.1 with exactly one Upgrade header containing websocket, one Connection header containing Upgrade, one key and one version header equal to 13, and its sub-protocol and extension offers are acceptable; otherwise it answers 400. The accept value sent is computed from the key received and the sub-protocol sent is the first acceptable one.", "quantifier": "every request headers", "why_tests_cant": "the input space is unbounded and the failing inputs are rare shapes a sampled test does not hit", "anchors": ["src/ulfius.c:ulfius_webservice_dispatcher"]}
{"id": "C54", "title": "Client verifies the server handshake", "statement": "The WebSocket client opens only if the server answered 101 with Upgrade, Connection and the right Sec-WebSocket-Accept.", "quantifier": "every server response", "why_tests_cant": "a wrong mask test accepts nearly everything yet passes with compliant servers", "anchors": ["src/u_websocket.c:ulfius_websocket_connection_handshake"]}
{"id": "C55", "title": "Sub-protocol negotiation picks an offered protocol", "statement": "The negotiated sub-protocol is one both sides listed, the first acceptable by preference order, and negotiation fails iff there is none.", "quantifier": "every pair of lists", "why_tests_cant": "the input space is unbounded and the failing inputs are rare shapes a sampled test does not hit", "anchors": ["src/u_websocket.c:ulfius_check_first_match", "src/u_websocket.c:ulfius_check_list_match"]}
{"id": "C56", "title": "Random strings are uniform and in the alphabet", "statement": "Every character produced for the WebSocket key is in the 62-character alphabet, each with exactly the same number of random byte values mapping to it.", "quantifier": "every random byte sequence and bound", "why_tests_cant": "the input space is unbounded and the failing inputs are rare shapes a sampled test does not hit", "anchors": ["src/u_websocket.c:random_at_most", "src/u_websocket.c:rand_string"]}
{"id": "C57", "title": "wait_close deadline arithmetic", "statement": "The absolute deadline used by ulfius_websocket_wait_close(timeout) is exactly now + timeout milliseconds with nanoseconds below one second.", "quantifier": "every time and timeout", "why_tests_cant": "the input space is unbounded and the failing inputs are rare shapes a sampled test does not hit", "anchors": ["src/u_websocket.c:ulfius_websocket_wait_close", "src/u_websocket.c:ulfius_websocket_client_connection_wait_close"]}
{"id": "C58", "title": "Stopping the server waits for all websockets and cannot miss the last one", "statement": "ulfius_stop_framework returns only when no websocket is active, and it is never left asleep when the last websocket has ended.", "quantifier": "every interleaving of any number of websocket threads", "why_tests_cant": "needs every interleaving of threads, which a test run cannot schedule", "anchors": ["src/ulfius.c:ulfius_stop_framework", "src/u_websocket.c:ulfius_instance_remove_websocket_active"]}
{"id": "C59", "title": "Concurrent websocket registration is safe", "statement": "Any number of connections may be upgraded concurrently without an access outside the table of active websockets and without losing one.", "quantifier": "every interleaving of any number of threads", "why_tests_cant": "needs every interleaving of threads, which a test run cannot schedule", "anchors": ["src/u_websocket.c:ulfius_instance_add_websocket_active"]}
{"id": "C60", "title": "Waiting for a websocket close cannot be missed", "statement": "ulfius_websocket_wait_close(0) called on an open websocket returns once the websocket closes.", "quantifier": "every interleaving of the waiter and the websocket thread", "why_tests_cant": "needs every interleaving of threads, which a test run cannot schedule", "anchors": ["src/u_websocket.c:ulfius_websocket_wait_close", "src/u_websocket.c:ulfius_thread_websocket"]}
{"id": "C61", "title": "permessage-deflate parameters are sane", "statement": "When deflate is negotiated by the server callback the window sizes used are in 8..15 and the answer only contains parameters the peer may expect.", "quantifier": "every offer string", "why_tests_cant": "the input space is unbounded and the failing inputs are rare shapes a sampled test does not hit", "anchors": ["src/u_websocket.c:websocket_extension_server_match_deflate", "src/u_websocket.c:websocket_extension_client_match_deflate"]}
{"id": "C62", "title": "Instance parameters are validated", "statement": "ulfius_init_instance succeeds only for a non-null instance, a port in 1..65535 and a consistent address family, and a started instance always has a valid endpoint list.", "quantifier": "every parameter combination", "why_tests_cant": "the input space is unbounded and the failing inputs are rare shapes a sampled test does not hit", "anchors": ["src/ulfius.c:internal_ulfius_init_instance", "src/ulfius.c:ulfius_validate_instance"]}
{"id": "C63", "title": "TLS start needs key and certificate together", "statement": "The secure start function starts the server only with both key and certificate or with neither, and client-certificate authentication only with both.", "quantifier": "every parameter combination", "why_tests_cant": "the input space is unbounded and the failing inputs are rare shapes a sampled test does not hit", "anchors": ["src/ulfius.c:ulfius_start_secure_ca_trust_framework"]}
{"id": "C64", "title": "Duplicating an endpoint list is memory safe", "statement": "ulfius_duplicate_endpoint_list copies a list of any length into sufficient memory.", "quantifier": "every list length", "why_tests_cant": "heap overflow is silent", "anchors": ["src/ulfius.c:ulfius_duplicate_endpoint_list"]}
{"id": "C65", "title": "The static file callback serves only files under its root", "statement": "The example static file callback never opens a file outside the configured directory.", "quantifier": "every URL and file system", "why_tests_cant": "needs a sibling directory with the same name prefix", "anchors": ["example_callbacks/static_file/static_file_callback.c:callback_static_file"]}
{"id": "C66", "title": "Form body carries every entry exactly once", "statement": "The body the HTTP client sends for a non-empty map_post_body is its entries in order, joined by '&', such that splitting and unescaping gives the entries back.", "quantifier": "every map of strings", "why_tests_cant": "the input space is unbounded and the failing inputs are rare shapes a sampled test does not hit", "anchors": ["src/u_send_request.c:ulfius_send_http_streaming_request_max_header"]}
{"id": "C67", "title": "Received cookies keep their attributes", "statement": "A cookie received by the HTTP client is stored in the response with the name, value, expiry, domain, path, Secure and HttpOnly attributes libcurl reports for it.", "quantifier": "every cookie", "why_tests_cant": "tests compare name and value only; the flag columns are read from the wrong fields for every cookie", "anchors": ["src/u_send_request.c:ulfius_send_http_streaming_request_max_header"]}
{"id": "C68", "title": "Mail text has exactly the intended headers", "statement": "The text sent by ulfius_send_smtp_rich_email parses (RFC 5322) as the date, To, From, Cc, Subject and Content-Type headers with the given contents followed by the given body.", "quantifier": "every address, subject, content type and body", "why_tests_cant": "header injection needs CR LF inside a field", "anchors": ["src/u_send_request.c:ulfius_send_smtp_rich_email"]}
{"id": "C69", "title": "WebSocket reception does not depend on segmentation", "statement": "The messages delivered, pongs and close answers of the receive loop depend only on the bytes received, not on how the network cuts or delays them.", "quantifier": "every byte stream and every way to cut it", "why_tests_cant": "the number of ways to cut a stream is exponential; the network chooses", "anchors": ["src/u_websocket.c:read_data_from_socket", "src/u_websocket.c:ulfius_read_incoming_message", "src/u_websocket.c:ulfius_thread_websocket"]}
{"id": "C70", "title": "Messages received before the peer hangs up are delivered", "statement": "A message whose frames were completely received before the peer closed the connection is delivered.", "quantifier": "every stream and moment of the hang-up", "why_tests_cant": "depends on a race between poll and the peer", "anchors": ["src/u_websocket.c:is_websocket_data_available"]}
{"id": "C71", "title": "A frame contains only bytes of the message", "statement": "Every byte of a frame handed to the socket was written by the framing code; no uninitialised memory is sent.", "quantifier": "every message and fragment length", "why_tests_cant": "uninitialised bytes look like data", "anchors": ["src/u_websocket.c:ulfius_build_frame"]}
{"id": "C72", "title": "Pings are answered with the same payload", "statement": "At any moment of a connection a ping of at most 125 bytes is answered at once by one pong frame with the same payload.", "quantifier": "every connection state and payload", "why_tests_cant": "states of the receive loop are unbounded", "anchors": ["src/u_websocket.c:ulfius_thread_websocket", "src/u_websocket.c:ulfius_websocket_send_fragmented_message"]}
{"id": "C73", "title": "The outgoing history records what was sent", "statement": "The message kept in message_list_outcoming has the opcode, RSV bits and payload that were sent.", "quantifier": "every message", "why_tests_cant": "the list is rarely inspected", "anchors": ["src/u_websocket.c:ulfius_send_websocket_message_managed"]}
{"id": "C74", "title": "A successful send puts the whole message on the wire", "statement": "When ulfius_websocket_send_message returns U_OK all bytes of the frames were given to the socket in order.", "quantifier": "every message and every behaviour of the socket", "why_tests_cant": "needs a slow peer and a full socket buffer at the right moment", "anchors": ["src/u_websocket.c:ulfius_websocket_send_frame", "src/u_websocket.c:ulfius_send_websocket_message_managed"]}
{"id": "C75", "title": "Extensions are undone in reverse order", "statement": "A message transformed by the enabled extensions of the sender is restored by a receiver with the same extensions, if each extension's in function undoes its out function.", "quantifier": "every list of extensions and every message", "why_tests_cant": "lists of extensions are unbounded; order matters only with two or more", "anchors": ["src/u_websocket.c:ulfius_websocket_extension_message_in_perform_apply", "src/u_websocket.c:ulfius_websocket_send_fragmented_message"]}
{"id": "C76", "title": "Extension functions get their own user data", "statement": "The in function of an extension is called with the user data registered for it.", "quantifier": "every extension", "why_tests_cant": "only visible when the two pointers differ", "anchors": ["src/u_websocket.c:ulfius_websocket_extension_message_in_perform_apply", "src/u_websocket.c:ulfius_add_websocket_extension_message_perform"]}
{"id": "C77", "title": "A cleared message list can be used again", "statement": "After ulfius_clear_websocket_message_list a list can be pushed to, popped and cleared without undefined behaviour.", "quantifier": "every history", "why_tests_cant": "reads of freed or unset memory may go unnoticed", "anchors": ["src/u_websocket.c:ulfius_clear_websocket_message_list"]}
{"id": "C78", "title": "The incoming history holds delivered messages only", "statement": "Every message in message_list_incoming is complete, allowed and, if text, UTF-8, like the messages given to the callback.", "quantifier": "every stream and every moment of closing", "why_tests_cant": "needs data in flight while closing", "anchors": ["src/u_websocket.c:ulfius_websocket_send_fragmented_message", "src/u_websocket.c:ulfius_thread_websocket"]}
{"id": "C79", "title": "Both ends agree on the deflate parameters", "statement": "When the client callback reads the answer the server callback gave to any offer, both ends work with the same window sizes, and each end inflates with the flush mode the other deflates with; both switch the extension on and mark compressed messages with the same reserved bit, RSV1.", "quantifier": "every offer string the server accepts", "why_tests_cant": "offers are arbitrary strings; a mismatch shows only as corrupted messages later", "anchors": ["src/u_websocket.c:websocket_extension_server_match_deflate", "src/u_websocket.c:websocket_extension_client_match_deflate"]}
{"id": "C80", "title": "A deflate offer is found wherever it stands in the list", "statement": "A client that offers permessage-deflate in its list of extensions gets it from a server with the deflate extension, wherever the offer stands in the list.", "quantifier": "every list of offers", "why_tests_cant": "tests offer deflate alone or first", "anchors": ["src/u_websocket.c:websocket_extension_server_match_deflate"]}
{"id": "C81", "title": "Stopping asks every websocket to close", "statement": "ulfius_stop_framework sets the close flag of every websocket that is registered, and the flag stays set until the websocket ends.", "quantifier": "every interleaving of the server and any number of websocket threads", "why_tests_cant": "needs every interleaving of threads, which a test run cannot schedule", "anchors": ["src/ulfius.c:ulfius_stop_framework", "src/u_websocket.c:ulfius_start_websocket_cb"]}
{"id": "C82", "title": "A stopped instance can be cleaned", "statement": "After ulfius_stop_framework has returned, ulfius_clean_instance frees nothing a websocket thread still uses.", "quantifier": "every interleaving of the server and any number of websocket threads", "why_tests_cant": "needs every interleaving of threads, which a test run cannot schedule", "anchors": ["src/ulfius.c:ulfius_stop_framework", "src/ulfius.c:ulfius_clean_instance", "src/u_websocket.c:ulfius_instance_remove_websocket_active"]}
{"id": "C83", "title": "A lost connection does not block the stop", "statement": "ulfius_stop_framework returns also when a connection was lost between the answer to its handshake and its upgrade.", "quantifier": "every interleaving of the server and any number of websocket threads", "why_tests_cant": "needs every interleaving of threads, which a test run cannot schedule", "anchors": ["src/ulfius.c:ulfius_webservice_dispatcher", "src/ulfius.c:mhd_request_completed", "src/ulfius.c:ulfius_stop_framework"]}
{"id": "C84", "title": "A client websocket is freed only after its thread is done with it", "statement": "When the wait or close function of a websocket client frees the websocket, its thread does not use it any more.", "quantifier": "every interleaving of the caller and the websocket thread", "why_tests_cant": "needs every interleaving of threads, which a test run cannot schedule", "anchors": ["src/u_websocket.c:ulfius_websocket_client_connection_wait_close", "src/u_websocket.c:ulfius_websocket_client_connection_close", "src/u_websocket.c:ulfius_thread_websocket"]}
{"id": "C85", "title": "A websocket client handle may be used in any order", "statement": "The functions on a websocket client handle (open, status, close, wait for close) may be called in any order without an access to freed or null memory.", "quantifier": "every sequence of calls", "why_tests_cant": "sequences are unbounded and use after free is often silent", "anchors": ["src/u_websocket.c:ulfius_websocket_client_connection_close", "src/u_websocket.c:ulfius_websocket_client_connection_status", "src/u_websocket.c:ulfius_websocket_client_connection_wait_close", "src/u_websocket.c:ulfius_open_websocket_client_connection"]}
{"id": "C86", "title": "Starting an instance that runs changes nothing", "statement": "Starting an instance that already runs fails, starts no second server and leaves the running one under the control of the instance, so that it can still be stopped.", "quantifier": "every running instance and every set of start parameters", "why_tests_cant": "needs a second start and a look at the server that should still be stoppable", "anchors": ["src/ulfius.c:ulfius_start_secure_ca_trust_framework", "src/ulfius.c:ulfius_run_mhd_daemon", "src/ulfius.c:ulfius_stop_framework"]}
{"id": "C87", "title": "The server listens where it was told to", "statement": "A started instance listens on the address family, address and port it was initialised with, and on nothing else.", "quantifier": "every port, address and network type", "why_tests_cant": "the combinations of address, network type and library flags are many and need several network stacks", "anchors": ["src/ulfius.c:ulfius_init_instance", "src/ulfius.c:ulfius_init_instance_ipv6", "src/ulfius.c:ulfius_run_mhd_daemon"]}
{"id": "C88", "title": "Any sequence of calls on an instance is safe and leaves no server behind", "statement": "In any sequence of initialise, add, remove, start, stop and clean calls nothing undefined happens, exactly one server runs while the instance is started and none otherwise.", "quantifier": "every sequence of calls", "why_tests_cant": "sequences are unbounded", "anchors": ["src/ulfius.c:internal_ulfius_init_instance", "src/ulfius.c:ulfius_start_secure_ca_trust_framework", "src/ulfius.c:ulfius_stop_framework", "src/ulfius.c:ulfius_clean_instance", "src/ulfius.c:ulfius_remove_endpoint"]}
{"id": "C89", "title": "The static file callbacks read the URL inside its bounds", "statement": "Whatever URL is requested and whatever prefix is configured, the static file callbacks read the file name inside the URL, and it is what stands behind the prefix.", "quantifier": "every URL and prefix", "why_tests_cant": "an access a few bytes behind a heap block is silent", "anchors": ["example_callbacks/static_file/static_file_callback.c:callback_static_file", "example_callbacks/static_compressed_inmemory_website/static_compressed_inmemory_website_callback.c:callback_static_compressed_inmemory_website"]}
{"id": "C90", "title": "The compressed static file callback leaves no file open", "statement": "Every file the callback opens is closed again.", "quantifier": "every request and configuration", "why_tests_cant": "one leaked file descriptor is invisible; the server fails after thousands of requests", "anchors": ["example_callbacks/static_compressed_inmemory_website/static_compressed_inmemory_website_callback.c:callback_static_compressed_inmemory_website"]}
{"id": "C91", "title": "Removing by value removes exactly the entries holding it", "statement": "u_map_remove_from_value and u_map_remove_from_value_case remove exactly the entries whose value equals the argument (up to ASCII case for the latter), keep all others in order with their values, never read outside a stored value, and return U_ERROR_NOT_FOUND iff there was none.", "quantifier": "all reachable maps, all searched values", "why_tests_cant": "A test removes values that are either equal or clearly different; it does not try a value that is a proper prefix of a stored one, nor one longer than a stored block, where the comparison leaves the allocation without visible effect.", "anchors": ["src/u_map.c:u_map_remove_from_value", "src/u_map.c:u_map_remove_from_value_binary", "src/u_map.c:u_map_remove_from_value_case", "src/u_map.c:u_map_remove_at"]}
{"id": "C92", "title": "Accepted URLs are well-formed", "statement": "Whenever yuarel_parse accepts a text, that text is exactly its reported components written back in order with their delimiters, split in the only way in which each component ends at the first delimiter that can end it; scheme, host and (if present) port text are not empty, the host contains no '@', and the port is a decimal number.", "quantifier": "for every byte string the parser accepts", "why_tests_cant": "Tests try a handful of URLs; a parser that accepts a malformed text (empty host, dropped characters) is only exposed by an input nobody thought of.", "anchors": ["src/yuarel.c:yuarel_parse"]}
{"id": "C93", "title": "Exported responses are HTTP messages", "statement": "ulfius_export_response_http yields a text that an independent HTTP/1.1 reader takes apart into the status, the headers in order, one Set-Cookie field per cookie, the length of the body, and exactly the body.", "quantifier": "for every response: all headers, cookies and bodies", "why_tests_cant": "The format test compares one text; which header values, cookie sets or bodies break the message structure is a question about all of them.", "anchors": ["src/u_response.c:ulfius_export_response_http"]}
{"id": "C94", "title": "Exported requests are HTTP messages", "statement": "ulfius_export_request_http yields a text that an independent HTTP/1.1 reader takes apart into verb, target, fields and body: the target carries the path and the parameters of URL and map_url, which decode to what was set; the fields carry the host, headers, cookies and credentials; the body is the body or the encoded form.", "quantifier": "for every request: all URLs, parameters, headers, cookies, forms and bodies", "why_tests_cant": "Escaping and separators interact with every possible content of four tables; tests fix a few contents and compare texts.", "anchors": ["src/u_request.c:ulfius_export_request_http"]}
{"id": "C95", "title": "The server answers exactly the extensions it enabled", "statement": "After the server negotiated WebSocket extensions, the Sec-WebSocket-Extensions answer lists the texts of exactly the extensions it enabled, once each, in the order of the client's offer; every one of them was asked for by a different item of the offer; an extension known by name whose name is offered is enabled.", "quantifier": "every offer text, every list of registered extensions, every behaviour of the match callbacks", "why_tests_cant": "the answer depends on the order of items, registrations, callback results and reserved bits; tests register one extension", "anchors": ["src/ulfius.c:ulfius_webservice_dispatcher", "src/u_websocket.c:ulfius_check_list_match"]}
{"id": "C96", "title": "The client only accepts extensions it asked for", "statement": "The client handshake succeeds only if every extension in the server's answer is one the client registered, each enabling a different registered extension.", "quantifier": "every answer text, every list of registered extensions, every behaviour of the match callbacks", "why_tests_cant": "a test server only answers extensions that were offered", "anchors": ["src/u_websocket.c:ulfius_websocket_connection_handshake"]}
{"id": "C97", "title": "The answer carries exactly what the last callback left in the response", "statement": "For any chain of callbacks that neither installs a stream nor a websocket and whose lines libmicrohttpd accepts, the answer is decided by the last call. A completed request is answered with the status of the response, one header line per header that has a value, in the order of the map, then one Set-Cookie line per cookie, in order, and exactly the body bytes; UNAUTHORIZED sends the same lines and body with 401 and the realm of the response, or else the default realm; an error code sends 500 with the fixed body and none of the lines; an unknown resource without default endpoint sends the fixed 404. No memory error happens on the way.", "quantifier": "every list of callbacks (arbitrary functions of everything they can see), every response they leave, every default endpoint, every acceptance behaviour of libmicrohttpd", "why_tests_cant": "A test fixes a handful of callbacks and responses; the claim ranges over all chains, all maps of headers, cookies and bodies, and over the code paths of loop and fallback, which are duplicated in the source.", "anchors": ["src/ulfius.c:ulfius_webservice_dispatcher", "src/u_response.c:ulfius_set_response_header", "src/u_response.c:ulfius_set_response_cookie", "src/ulfius.c:ulfius_get_body_from_response"]}
{"id": "C98", "title": "A response that cannot be sent in full is not sent as if it were complete", "statement": "If libmicrohttpd refuses a header or a cookie of a response, the client does not receive the status of the callback with part of the lines missing: either all lines are sent or an error status is.", "quantifier": "every response, every refusal behaviour of libmicrohttpd", "why_tests_cant": "Whether a line is refused depends on its bytes (line breaks, empty values); tests use well-formed headers and never see a refusal.", "anchors": ["src/ulfius.c:ulfius_webservice_dispatcher", "src/u_response.c:ulfius_set_response_header", "src/u_response.c:ulfius_set_response_cookie", "src/ulfius.c:ulfius_get_body_from_response"]}
{"id": "C99", "title": "A stream set on the response is what the client receives", "statement": "When the callback that ends the chain leaves a stream on the response, the client receives that stream with the status, the headers and the cookies of the response, whichever endpoint (matched or default) installed it.", "quantifier": "every list of callbacks, every default endpoint, every response", "why_tests_cant": "The behaviour depends on which of the two copies of the answer code runs; tests stream from matched endpoints only.", "anchors": ["src/ulfius.c:ulfius_webservice_dispatcher", "src/u_response.c:ulfius_set_response_header", "src/u_response.c:ulfius_set_response_cookie", "src/ulfius.c:ulfius_get_body_from_response"]}
{"id": "C100", "title": "An accepted websocket handshake is answered by the protocol switch", "statement": "When the callback that ends the chain installed a websocket callback and the handshake is accepted, the answer is the upgrade response with status 101, the lines of the handshake and the headers and cookies of the response; a response that is not an upgrade is never sent with status 101.", "quantifier": "every list of callbacks with every return code, every default endpoint, every response", "why_tests_cant": "The failing case needs a combination of return code, default endpoint and websocket that no test sets up.", "anchors": ["src/ulfius.c:ulfius_webservice_dispatcher", "src/u_response.c:ulfius_set_response_header", "src/u_response.c:ulfius_set_response_cookie", "src/ulfius.c:ulfius_get_body_from_response"]}
{"id": "C101", "title": "Default headers of the instance are on every answer", "statement": "Every answer sent by the instance carries the default headers of the instance in their order, unless a callback changed the headers of its response.", "quantifier": "every set of default headers, every list of callbacks that leave the headers alone, every outcome", "why_tests_cant": "Tests look at one answer of one endpoint; answers built by the dispatcher itself (errors, unknown resources, refused handshakes) take other paths.", "anchors": ["src/ulfius.c:ulfius_webservice_dispatcher", "src/u_response.c:ulfius_set_response_header", "src/u_response.c:ulfius_set_response_cookie", "src/ulfius.c:ulfius_get_body_from_response"]}
{"id": "C102", "title": "Compressed websocket messages come back unchanged", "statement": "Between two ulfius peers that negotiated permessage-deflate, every sequence of messages sent one after the other (empty ones included) is delivered as it was sent.", "quantifier": "all sequences of messages of any length and content, both flush modes, every zlib that restores what it flushed", "why_tests_cant": "the output is collected in 256-byte pieces and its last four bytes are inspected; boundary cases depend on the compressed length, and the 32-bit length only matters from 4 GiB on", "anchors": ["src/u_websocket.c:websocket_extension_message_out_deflate", "src/u_websocket.c:websocket_extension_message_in_inflate"]}
{"id": "C103", "title": "Any RFC 7692 receiver can read what is sent compressed", "statement": "The payload of every message sent with the compression bit, with 00 00 FF FF appended, inflates to the message, for every sequence of messages on one connection.", "quantifier": "all sequences of messages, both flush modes, every zlib that restores what it flushed", "why_tests_cant": "tests run ulfius against itself, whose receiver treats an empty payload specially; other receivers do not", "anchors": ["src/u_websocket.c:websocket_extension_message_out_deflate"]}
{"id": "C104", "title": "Compressed messages of any RFC 7692 sender are delivered", "statement": "Every sequence of payloads a peer may produce under RFC 7692 is delivered as that RFC says, and a payload that is not a DEFLATE stream is refused.", "quantifier": "all sequences of payloads, every behaviour of zlib, final blocks included", "why_tests_cant": "tests send payloads made by zlib with a sync flush; a sender that ends messages with final blocks is not in the test suite", "anchors": ["src/u_websocket.c:websocket_extension_message_in_inflate"]}
{"id": "C105", "title": "TLS checks of outgoing requests are off only on request", "statement": "In every transfer made by the HTTP client the certificate and the host name of the server, and of the proxy, are checked unless the request explicitly switches the check off; the certificate authorities are those of the request.", "quantifier": "every request, every libcurl behaviour, every response argument and body function", "why_tests_cant": "A test sees one combination of flags against one server; a check silently dropped for another combination is invisible unless an attack takes place.", "anchors": ["src/u_send_request.c:ulfius_send_http_streaming_request_max_header", "src/u_send_request.c:ulfius_send_http_request", "src/u_send_request.c:ulfius_send_http_request_with_limit"]}
{"id": "C106", "title": "The HTTP client makes the request it was given", "statement": "Every transfer has had all options accepted by libcurl and uses the verb, URL with parameters, body or form, credentials, client certificate, proxy, timeout and redirection setting of the request, speaks only http and https (also after redirections), and does not wait for a body that cannot come.", "quantifier": "every request whose maps hold strings, every libcurl behaviour", "why_tests_cant": "The request has over twenty independent fields, most of them optional; tests cover a few combinations.", "anchors": ["src/u_send_request.c:ulfius_send_http_streaming_request_max_header", "src/u_send_request.c:ulfius_send_http_request", "src/u_send_request.c:ulfius_send_http_request_with_limit"]}
{"id": "C107", "title": "The headers sent are the headers of the request", "statement": "The headers the peer reads from the request are exactly those of map_header, in order, each once, with their values (plus the content type of a form).", "quantifier": "every header map, with and without a form", "why_tests_cant": "Depends on every byte of names and values (empty, CR LF, case).", "anchors": ["src/u_send_request.c:ulfius_send_http_streaming_request_max_header"]}
{"id": "C108", "title": "The cookies sent are the cookies of the request", "statement": "The peer reads exactly the cookies of map_cookie, in order, with their values.", "quantifier": "every cookie map and header map", "why_tests_cant": "Depends on every byte of names and values and on the other headers.", "anchors": ["src/u_send_request.c:ulfius_send_http_streaming_request_max_header"]}
{"id": "C109", "title": "The network type of a request is respected", "statement": "A request restricted to IPv4 (U_USE_IPV4) or IPv6 (U_USE_IPV6) only uses addresses of that family; U_USE_ALL uses both.", "quantifier": "every request", "why_tests_cant": "On a test machine both families usually lead to the same server.", "anchors": ["src/u_send_request.c:ulfius_send_http_streaming_request_max_header", "include/ulfius.h:U_USE_ALL"]}
{"id": "C110", "title": "The response shows what the server answered last", "statement": "After U_OK the response has the status, headers, status line, cookies and (up to the limit) the body of the final response of the server, and nothing else.", "quantifier": "every response of well-formed header lines, every block structure of the body, every limit, every earlier use of the response", "why_tests_cant": "Depends on the sequence of blocks and lines and on what the response held before.", "anchors": ["src/u_send_request.c:ulfius_send_http_streaming_request_max_header", "src/u_send_request.c:ulfius_send_http_request", "src/u_send_request.c:ulfius_send_http_request_with_limit"]}
{"id": "C111", "title": "Failures of a request are reported without undefined behaviour", "statement": "When libcurl refuses an option or the transfer fails, the client returns U_ERROR_LIBCURL and has touched nothing it should not; U_OK means that the transfer took place; without request it returns U_ERROR_PARAMS.", "quantifier": "every request, every libcurl behaviour", "why_tests_cant": "Requires libcurl to refuse each single option; tests cannot make it do so.", "anchors": ["src/u_send_request.c:ulfius_send_http_streaming_request_max_header", "src/u_send_request.c:ulfius_send_http_request", "src/u_send_request.c:ulfius_send_http_request_with_limit"]}
{"id": "C112", "title": "A list of request options is applied in order, all or up to the first refused one", "statement": "ulfius_set_request_properties gives every setting the value last given for it (an empty text or NULL unsets it), applies map options in order, and leaves everything else alone; on a refused option it returns its error, and the request is exactly what the options before it made.", "quantifier": "every request, every list of options with any arguments", "why_tests_cant": "Thirty options in any order and number; tests use a few fixed lists.", "anchors": ["src/u_request.c:ulfius_set_request_properties"]}
{"id": "C113", "title": "A list of response options is applied in order, all or up to the first refused one", "statement": "ulfius_set_response_properties gives every setting the value last given for it, applies header options in order, and leaves cookies, stream and websocket settings alone; on a refused option it returns its error, and the response is exactly what the options before it made.", "quantifier": "every response, every list of options with any arguments", "why_tests_cant": "Unbounded sequences of options.", "anchors": ["src/u_response.c:ulfius_set_response_properties"]}
{"id": "C114", "title": "A JSON body can be read back", "statement": "After a JSON value was set as the body of a request or response, the corresponding get function parses exactly the text of that value.", "quantifier": "every message with any headers, every JSON value", "why_tests_cant": "Depends on the headers the message already has.", "anchors": ["src/u_request.c:ulfius_set_json_body_request", "src/u_request.c:ulfius_get_json_body_request", "src/u_response.c:ulfius_set_json_body_response", "src/u_response.c:ulfius_get_json_body_response"]}
{"id": "C115", "title": "Only JSON is read as JSON", "statement": "The body of a message is given to the JSON parser, whole, exactly when the message has one content type header and it names the media type application/json (RFC 9110).", "quantifier": "every header map and body", "why_tests_cant": "Every spelling of a media type and its parameters is an input.", "anchors": ["src/u_request.c:ulfius_get_json_body_request", "src/u_response.c:ulfius_get_json_body_response"]}
{"id": "C116", "title": "A refused JSON body is explained", "statement": "When a get function for JSON bodies returns NULL without parsing, every field of the json_error structure of the caller is written and its text names the content type received.", "quantifier": "every header map and body", "why_tests_cant": "Uninitialised fields often look plausible in a test.", "anchors": ["src/u_request.c:ulfius_get_json_body_request", "src/u_response.c:ulfius_get_json_body_response"]}
{"id": "C117", "title": "Mail uses the connection asked for", "statement": "A mail is sent to the given host and port, encrypted exactly when TLS is asked for, with the server checked as documented for verify_certificate, and with the credentials given.", "quantifier": "every argument, every libcurl behaviour", "why_tests_cant": "A missing check is only visible under attack.", "anchors": ["src/u_send_request.c:ulfius_send_smtp_rich_email", "src/u_send_request.c:ulfius_send_smtp_email"]}
{"id": "C118", "title": "Mail reaches its recipients and hides the bcc address", "statement": "Every mail transfer has the given sender, exactly the recipients to, cc and bcc, and a text that does not depend on bcc.", "quantifier": "every argument, every libcurl behaviour", "why_tests_cant": "Non-interference compares all pairs of calls.", "anchors": ["src/u_send_request.c:ulfius_send_smtp_rich_email", "src/u_send_request.c:ulfius_send_smtp_email"]}
{"id": "C119", "title": "The result of sending a mail is reported", "statement": "U_OK is returned exactly when libcurl accepted every option and made the transfer; U_ERROR_PARAMS exactly when a mandatory argument is missing, and then nothing is sent.", "quantifier": "every argument, every libcurl behaviour", "why_tests_cant": "Requires libcurl to refuse each single option.", "anchors": ["src/u_send_request.c:ulfius_send_smtp_rich_email", "src/u_send_request.c:ulfius_send_smtp_email"]}
{"id": "C120", "title": "A websocket is opened by the request that was asked for", "statement": "Opening a websocket sends one HTTP/1.1 GET request for the path and query of the URL, with the host and port of the URL, the fields of an upgrade, and exactly the headers, parameters and values of the request; it sends nothing when the server cannot be reached.", "quantifier": "every request, URL, answer of the server and failure of the network", "why_tests_cant": "Header maps and URLs are unbounded inputs, and the text sent is never looked at by the tests.", "anchors": ["src/u_websocket.c:ulfius_open_websocket_client_connection", "src/u_websocket.c:ulfius_websocket_connection_handshake"]}
{"id": "C121", "title": "A prepared websocket request passes the checks of a server", "statement": "ulfius_set_websocket_request leaves a request that, sent to a server of this library, meets all conditions of the opening handshake, whatever headers it had before, and keeps the other headers.", "quantifier": "every request with any headers, every URL, protocol and extension text", "why_tests_cant": "Depends on the headers the request already has.", "anchors": ["src/u_websocket.c:ulfius_set_websocket_request"]}
{"id": "C122", "title": "A secure websocket URL is never used without TLS", "statement": "With a wss or https URL nothing is sent before a TLS session with the host of the URL is established, and the certificate is checked for that host unless the request turns this off; a URL of an unknown scheme is refused without any effect.", "quantifier": "every byte string as URL, every request, every behaviour of network and TLS", "why_tests_cant": "A request that leaves in the clear is only noticed by an eavesdropper.", "anchors": ["src/u_websocket.c:ulfius_open_websocket_client_connection", "src/u_websocket.c:ulfius_open_websocket_tls"]}
{"id": "C123", "title": "A websocket connects to the host and port of the URL", "statement": "The only connection made is to the host of the URL and to its port, or the port of the scheme when there is none.", "quantifier": "every well-formed URL and every behaviour of the network", "why_tests_cant": "Every port number is an input.", "anchors": ["src/u_websocket.c:ulfius_open_websocket_client_connection", "src/u_websocket.c:ulfius_open_websocket"]}
{"id": "C124", "title": "Credentials in a websocket URL are sent as basic authentication", "statement": "With user and password in the URL, the request sent has exactly one Authorization field, `Basic ` and the base64 text of user:password, and the request of the caller is not changed.", "quantifier": "every URL with credentials, every header map", "why_tests_cant": "Needs a server that checks the field and a map that already has one.", "anchors": ["src/u_websocket.c:ulfius_open_websocket_client_connection"]}
{"id": "C125", "title": "A failed opening of a websocket leaves no socket open", "statement": "When ulfius_open_websocket_client_connection does not return U_OK, every socket it made is closed again; never is a socket closed twice.", "quantifier": "every failure of name resolution, connection, TLS, handshake and extension negotiation", "why_tests_cant": "Leaks on error paths need the failure of each single step.", "anchors": ["src/u_websocket.c:ulfius_open_websocket_client_connection", "src/u_websocket.c:ulfius_open_websocket", "src/u_websocket.c:ulfius_open_websocket_tls", "src/u_websocket.c:ulfius_websocket_connection_handshake"]}
{"id": "C126", "title": "Websocket extensions are registered in order, at most three are active", "statement": "A registration is accepted exactly when it has a name, a function and one of the three RSV bits; the accepted ones are kept in order; at most three become active, with different RSV bits; the context of an extension is NULL until its match function sets it.", "quantifier": "every sequence of registrations, every match function, every offer or answer of the peer", "why_tests_cant": "Sequences, callbacks and offers are unbounded.", "anchors": ["src/u_websocket.c:ulfius_add_websocket_extension_message_perform", "src/u_websocket.c:ulfius_add_websocket_client_extension_message_perform"]}
{"id": "C127", "title": "The end of a server websocket is announced once", "statement": "For every request answered by a websocket callback, accepted or refused, the onclose callback is called exactly once, after the manager callback has returned and after the last message, and the websocket is freed once, behind it.", "quantifier": "every handshake decision, every sequence of messages, every interleaving of the two threads, every failure of libmicrohttpd and thread creation", "why_tests_cant": "Interleavings and failures cannot be forced by a test.", "anchors": ["src/ulfius.c:ulfius_webservice_dispatcher", "src/u_websocket.c:ulfius_start_websocket_cb", "src/u_websocket.c:ulfius_thread_websocket"]}
{"id": "C128", "title": "Requests neither leak nor use freed memory", "statement": "A program may make any number of requests (its own with ulfius_init_request, those of the server, copies with ulfius_duplicate_request), set their options, maps, bodies and websocket headers in any order and any number of times, and clean them in any order. No memory is used after it was freed, none is freed twice, and once all requests are cleaned everything they allocated is freed.", "quantifier": "all heaps before the program, all programs (lists of calls over any number of requests), all arguments", "why_tests_cant": "Leaks and double frees show only for particular sequences of calls; tests run a few sequences under a checker, the property is about all of them.", "anchors": ["src/u_request.c:ulfius_init_request", "src/u_request.c:ulfius_clean_request", "src/u_request.c:ulfius_clean_request_full", "src/u_request.c:ulfius_copy_request", "src/u_request.c:ulfius_duplicate_request", "src/u_request.c:ulfius_set_request_properties", "src/u_request.c:ulfius_import_client_certificate_pem", "src/u_map.c:u_map_put_binary", "src/u_map.c:u_map_clean_full", "src/u_map.c:u_map_copy_into", "src/u_websocket.c:ulfius_set_websocket_request"]}
{"id": "C129", "title": "Responses neither leak nor use freed memory", "statement": "A program may make any number of responses, set headers, cookies, realm, bodies and websocket data in any order and any number of times, receive answers of servers into them with ulfius_send_http_request, copy them (ulfius_copy_response, ulfius_duplicate_response) and clean them in any order. No memory is used after it was freed, none is freed twice, and once all responses are cleaned everything they allocated is freed.", "quantifier": "all heaps before the program, all programs (lists of calls over any number of responses), all arguments and answers", "why_tests_cant": "Leaks and double frees show only for particular sequences of calls, such as copying a response with an incomplete cookie; tests run a few sequences.", "anchors": ["src/u_response.c:ulfius_init_response", "src/u_response.c:ulfius_clean_response", "src/u_response.c:ulfius_clean_cookie", "src/u_response.c:ulfius_copy_cookie", "src/u_response.c:ulfius_copy_response", "src/u_response.c:ulfius_duplicate_response", "src/u_response.c:ulfius_add_same_site_cookie_to_response", "src/u_response.c:ulfius_set_response_properties", "src/u_send_request.c:write_header", "src/u_send_request.c:ulfius_send_http_request", "src/u_websocket.c:ulfius_set_websocket_response", "src/u_websocket.c:ulfius_add_websocket_extension_message_perform", "src/u_map.c:u_map_copy"]}
{"id": "C130", "title": "Serving requests neither leaks nor uses freed memory", "statement": "Whatever requests clients send, with any headers, query, cookies and bodies, wherever their connections break off, whichever endpoints match and whatever the callbacks do with request and response, the server uses no memory after it was freed, frees none twice, and once the instance is cleaned all memory it allocated for the requests is freed.", "quantifier": "all heaps before, all default headers, all sequences of requests broken off at any point, all endpoints, all callbacks (sequences of calls on request and response with any result), all decisions of libmicrohttpd", "why_tests_cant": "A leak per request shows only after many requests of the one kind that causes it (a parameter without name, a refused header field, an unknown result of the default endpoint), and a double free only for a client certificate that cannot be imported; tests send a few requests and look at the answers.", "anchors": ["src/ulfius.c:ulfius_webservice_dispatcher", "src/ulfius.c:ulfius_uri_logger", "src/ulfius.c:mhd_request_completed", "src/ulfius.c:mhd_iterate_post_data", "src/ulfius.c:ulfius_fill_map", "src/ulfius.c:ulfius_fill_map_check_utf8", "src/ulfius.c:ulfius_get_body_from_response", "src/u_request.c:ulfius_split_url", "src/u_request.c:ulfius_endpoint_match", "src/u_request.c:ulfius_parse_url", "src/u_response.c:ulfius_set_response_header", "src/u_response.c:ulfius_set_response_cookie", "src/ulfius.c:ulfius_init_instance", "src/ulfius.c:ulfius_clean_instance"]}
{"id": "C131", "title": "Compressed answers decode to the body that was set", "statement": "An endpoint served through the HTTP compression callback delivers the same body as without it: a client that undoes the codings named in the header Content-Encoding of the answer reads exactly the body the other callbacks set. The body is compressed only with a coding the client lists in Accept-Encoding and the configuration allows (gzip before deflate), the header names that coding, and status, other headers and cookies stay as they were. When zlib fails the answer is left as it was.", "quantifier": "all requests, all responses, all configurations, all bodies, all lossless compressors whatever the length of their output, failing at any call", "why_tests_cant": "The output is collected in blocks of 256 bytes, so the end of the stream can fall anywhere, in particular exactly on the end of a block; the combinations of Accept-Encoding, configuration and headers set earlier are unbounded, and bodies beyond 4 GiB do not fit a test.", "anchors": ["example_callbacks/http_compression/http_compression_callback.c:callback_http_compression", "src/u_response.c:ulfius_set_binary_body_response", "src/u_map.c:u_map_put", "src/u_map.c:u_map_count_keys_case"]}
{"id": "C132", "title": "Only requests with a valid access token pass the token callbacks", "statement": "When callback_check_glewlwyd_access_token or callback_check_glewlwyd_oidc_access_token lets a request through, the request carries at the configured place (header Authorization, form, query) a token that is signed with a configured key and the configured algorithm, has not expired, is of an accepted type, names its subject and has one of the required scopes. The response is unchanged and the next callbacks get the subject and exactly the required scopes the token has. Without a configuration nothing passes.", "quantifier": "all requests, all responses, all configurations, all tokens and claims, all signature libraries, all times", "why_tests_cant": "A test shows that some bad tokens are stopped; that no other combination of headers, claims of any JSON type, scopes, keys and times passes is a statement on an unbounded set, and an attacker chooses its element.", "anchors": ["example_callbacks/oauth2_bearer/glewlwyd_resource.c:callback_check_glewlwyd_access_token", "example_callbacks/oauth2_bearer/glewlwyd_resource.c:access_token_check_signature", "example_callbacks/oauth2_bearer/glewlwyd_resource.c:access_token_check_validity", "example_callbacks/oauth2_bearer/glewlwyd_resource.c:access_token_check_scope", "example_callbacks/jwt_profile/oidc_resource.c:callback_check_glewlwyd_oidc_access_token", "example_callbacks/jwt_profile/oidc_resource.c:access_token_check_signature", "example_callbacks/jwt_profile/oidc_resource.c:access_token_check_validity", "example_callbacks/jwt_profile/oidc_resource.c:access_token_check_scope", "src/u_map.c:u_map_get_case"]}
{"id": "C133", "title": "Requests with a valid access token pass the token callbacks", "statement": "A request that carries in its only header Authorization, or else at the configured place, a token signed with a configured key and algorithm, live, of an accepted type, naming its subject, and with one of the required scopes (or with none required), is let through by these callbacks, whatever else the request contains.", "quantifier": "all requests, all configurations, all such tokens, all signature libraries, all times", "why_tests_cant": "Valid tokens differ in the JSON types and presence of optional claims and in the size of the numbers; tests use the few tokens their authors thought of, and these have all claims.", "anchors": ["example_callbacks/oauth2_bearer/glewlwyd_resource.c:callback_check_glewlwyd_access_token", "example_callbacks/oauth2_bearer/glewlwyd_resource.c:access_token_check_validity", "example_callbacks/oauth2_bearer/glewlwyd_resource.c:access_token_check_scope", "example_callbacks/jwt_profile/oidc_resource.c:callback_check_glewlwyd_oidc_access_token", "example_callbacks/jwt_profile/oidc_resource.c:access_token_check_validity", "example_callbacks/jwt_profile/oidc_resource.c:access_token_check_scope"]}
{"id": "C134", "title": "Refused requests get a challenge that tells the reason", "statement": "When one of the three access token callbacks refuses a request, it adds a header WWW-Authenticate that a client can read (RFC 7235) as the scheme Bearer with the configured realm, an error code of RFC 6750 and a description, and the code and description tell why the request was refused. The rest of the response stays as it was and nothing is handed on to other callbacks.", "quantifier": "all requests, all responses with any earlier headers, all configurations, all tokens, all signature libraries, all times", "why_tests_cant": "The reason given has to fit all requests that get it, and the challenge has to be readable for all realms; tests look at a few.", "anchors": ["example_callbacks/oauth2_bearer/glewlwyd_resource.c:callback_check_glewlwyd_access_token", "example_callbacks/jwt_profile/oidc_resource.c:callback_check_glewlwyd_oidc_access_token", "example_callbacks/iddawc_jwt_profile/iddawc_resource.c:callback_check_jwt_profile_access_token", "src/u_map.c:u_map_put"]}
{"id": "C135", "title": "Tokens bound to a key pass only with a proof of possession", "statement": "callback_check_jwt_profile_access_token lets a request through exactly when it carries one token that iddawc takes as valid, with one of the required scopes, and: if the token is bound to a key, it comes with the scheme DPoP and exactly one header DPoP with a proof valid for that key, that token, the method and the URL of the request; if it is not bound, it comes with the scheme Bearer and without header DPoP. The next callbacks then get the claims.", "quantifier": "all requests, all configurations, all tokens and claims, all behaviours of iddawc", "why_tests_cant": "The danger is a combination of scheme, binding, number and place of headers that skips the proof; the combinations of duplicate headers in different case are unbounded.", "anchors": ["example_callbacks/iddawc_jwt_profile/iddawc_resource.c:callback_check_jwt_profile_access_token", "example_callbacks/iddawc_jwt_profile/iddawc_resource.c:get_auth_header_token", "example_callbacks/iddawc_jwt_profile/iddawc_resource.c:jwt_profile_access_token_check_scope", "src/u_map.c:u_map_count_keys_case"]}
{"id": "C136", "title": "verify_dpop_proof accepts exactly the good proofs", "statement": "verify_dpop_proof accepts a request exactly when its only header DPoP is a proof of the type dpop+jwt, signed with an asymmetric algorithm by the key in its own header (no certificates), with an identifier, for the given method and URL, made not in the future and not longer ago than allowed, and the key has the given thumbprint. Its computations are defined for all limits on the age.", "quantifier": "all headers, all proofs and claims, all signature libraries, all times, all limits on the age", "why_tests_cant": "Each condition guards against proofs that an attacker makes up freely; tests try single violations at ordinary times.", "anchors": ["example_callbacks/jwt_profile/oidc_resource.c:verify_dpop_proof", "src/u_map.c:u_map_get_case"]}
{"id": "C137", "title": "Websockets neither leak nor use freed memory", "statement": "Whatever clients offer in the handshake of a websocket and send afterwards, whatever the extensions make of it and whatever the callbacks send, take out of the lists of messages and clear, in any order on any number of websockets and between any other requests, the server uses no memory after it was freed and frees none twice; and once the websockets have ended, the program has cleared the messages it took and the instance is cleaned, all memory that was allocated is freed.", "quantifier": "all heaps before, all sequences of requests, handshakes, frames, calls and ends of websockets, all sets of extensions and their answers, all lengths of data, all failures of reading and writing, all decisions of libmicrohttpd", "why_tests_cant": "A leak per handshake shows only after many handshakes of the one kind that causes it (a protocol not agreed upon after an extension was, two extensions with the same bit), a use of freed memory only when libmicrohttpd refuses a field; the interleavings of websockets, messages and failures are unbounded.", "anchors": ["src/ulfius.c:ulfius_webservice_dispatcher", "src/ulfius.c:mhd_request_completed", "src/u_websocket.c:ulfius_set_websocket_response", "src/u_websocket.c:ulfius_start_websocket_cb", "src/u_websocket.c:ulfius_thread_websocket", "src/u_websocket.c:ulfius_clear_websocket", "src/u_websocket.c:ulfius_clear_websocket_manager", "src/u_websocket.c:ulfius_init_websocket_manager", "src/u_websocket.c:ulfius_clear_websocket_message", "src/u_websocket.c:ulfius_clear_websocket_message_list", "src/u_websocket.c:ulfius_push_websocket_message", "src/u_websocket.c:ulfius_websocket_pop_first_message", "src/u_websocket.c:ulfius_instance_add_websocket_active", "src/u_websocket.c:ulfius_instance_remove_websocket_active", "src/u_websocket.c:ulfius_read_incoming_message", "src/u_websocket.c:ulfius_merge_fragmented_message", "src/u_websocket.c:ulfius_websocket_extension_message_in_perform_apply", "src/u_websocket.c:ulfius_send_websocket_message_managed", "src/u_websocket.c:ulfius_websocket_send_fragmented_message", "src/u_request.c:ulfius_copy_request"]}
{"id": "C138", "title": "Messages sent from several threads at the same time", "statement": "Callbacks, the thread that answers pings and any other threads of the program may send on the same websocket at the same time: every message goes out whole, unmixed with the bytes of others, and what is on the wire and in the list of outgoing messages is what a single thread would have left that made all the calls one after the other, in an order in which the calls of every thread keep theirs; the peer therefore delivers exactly these messages; every call returns; and no data follows a close frame.", "quantifier": "all numbers of threads, all lists of calls of each, all interleavings of their actions, all contents, lengths and fragment sizes, all ways the socket takes the bytes, all moments at which the connection is lost", "why_tests_cant": "An interleaving that mixes two frames, loses one or leaves a lock held shows only under a schedule that a test cannot force; the number of schedules grows exponentially with the length of the calls.", "anchors": ["src/u_websocket.c:ulfius_websocket_send_fragmented_message", "src/u_websocket.c:ulfius_send_websocket_message_managed", "src/u_websocket.c:ulfius_websocket_send_frame", "src/u_websocket.c:ulfius_websocket_send_message", "src/u_websocket.c:ulfius_thread_websocket", "src/u_websocket.c:ulfius_websocket_send_close_signal"]}
{"id": "C139", "title": "Endpoints added and removed while requests are served", "statement": "Endpoints can be added and removed while the instance runs, by callbacks too: nothing reads or writes memory that is not allocated; every request is answered by the endpoints that were registered when it came in and are meant for it, by priority, up to the one that ends the loop, whatever is added or removed meanwhile; every request comes to its end; and once all are answered, cleaning the list of endpoints gives back everything that was allocated.", "quantifier": "all sequences of added and removed endpoints, all numbers of requests at the same time, all methods and URLs, all interleavings of the changes with the steps of the requests, all callbacks that end the loop or not, all sorts", "why_tests_cant": "A request that reads the list while it is moved fails only under a schedule a test cannot force, and often reads memory that happens to be intact; leaks in rarely used orders of calls do not show in answers.", "anchors": ["src/ulfius.c:ulfius_add_endpoint", "src/ulfius.c:ulfius_remove_endpoint", "src/ulfius.c:ulfius_clean_endpoint_list", "src/ulfius.c:ulfius_clean_endpoint", "src/ulfius.c:ulfius_copy_endpoint", "src/ulfius.c:ulfius_webservice_dispatcher", "src/u_request.c:ulfius_endpoint_match"]}
{"id": "C140", "title": "Sending requests and mails leaves no memory behind", "statement": "A program may make, change, copy and clean requests and responses in any order, send any of the requests any number of times with or without a response for the answer, and send mails, whatever libcurl accepts or refuses and whatever the servers answer: no block is used after it was freed, none is freed twice, and once all requests and responses are cleaned every block is freed.", "quantifier": "all programs over any number of requests and responses, all parameters, headers, cookies and bodies, all refusals of libcurl at any point, all answers (header lines, cookie lists, bodies in any blocks, with any limit)", "why_tests_cant": "The error paths need libcurl to fail at a given call; leaks and stale pointers do not show in the result of the call, and cookie lists that trigger them come from servers the tests do not have.", "anchors": ["src/u_send_request.c:ulfius_send_http_request", "src/u_send_request.c:ulfius_send_http_request_with_limit", "src/u_send_request.c:ulfius_send_http_streaming_request", "src/u_send_request.c:ulfius_send_http_streaming_request_max_header", "src/u_send_request.c:ulfius_write_body", "src/u_send_request.c:ulfius_ignore_body", "src/u_send_request.c:write_header", "src/u_send_request.c:ulfius_send_smtp_rich_email", "src/u_send_request.c:ulfius_send_smtp_email"]}
{"id": "C141", "title": "JSON values sent over a websocket arrive as they are", "statement": "JSON values sent with ulfius_websocket_send_json_message one after the other, through whatever extensions were negotiated, are delivered by the peer in order, and ulfius_websocket_parse_json_message makes of each message the value that was sent. Nothing is sent for a NULL value or on a closed connection, and the call says so.", "quantifier": "all sequences of JSON values, all masks, all lists of extensions whose functions undo each other, all ways the bytes arrive", "why_tests_cant": "Tests send objects; the values for which the library gives no text (a plain string or number) need no special connection to fail and are reported as sent.", "anchors": ["src/u_websocket.c:ulfius_websocket_send_json_message", "src/u_websocket.c:ulfius_websocket_parse_json_message", "src/u_websocket.c:ulfius_websocket_send_message", "src/u_websocket.c:ulfius_websocket_send_fragmented_message"]}
{"id": "C142", "title": "uwsc sends what is typed", "statement": "The program uwsc sends the file given with -t or -b as one message and then every line typed as one text message, whole and in order, cut into frames of the length given with -f, until the line !q, for which it closes the connection and ends; it also ends when the input or the connection ends.", "quantifier": "all inputs, all files, all options, all moments at which the connection ends", "why_tests_cant": "A byte lost at the boundary of a buffer shows only for lines of exactly that length; that a program never ends at the end of its input is not seen in a finite run.", "anchors": ["tools/uwsc/uwsc.c:uwsc_manager_callback", "tools/uwsc/uwsc.c:read_file"]}
{"id": "C143", "title": "uwsc shows what arrives", "statement": "The program uwsc writes every text message that arrives to its output, whole, and the length of every binary message; with -l it writes nothing. It reads nothing but the message.", "quantifier": "all messages of all lengths, all options", "why_tests_cant": "Messages of 2 GiB or with a NUL are not part of any test; reading behind a block can go unnoticed.", "anchors": ["tools/uwsc/uwsc.c:uwsc_manager_incoming"]}
{"id": "C144", "title": "Endpoints can be registered as a list and by value", "statement": "ulfius_add_endpoint_list registers the endpoints of the array up to its end, in order, behind those already there; when one is refused it returns U_ERROR_PARAMS, those before it stay registered and nothing else changes. ulfius_add_endpoint_by_val registers exactly the given values or refuses them; ulfius_remove_endpoint_by_val removes exactly the endpoints with this method, prefix and format, whatever their priority, callback and user data.", "quantifier": "every instance, every array with an end, whatever follows the end, all values, all contents of the fields that are not set", "why_tests_cant": "Arrays and earlier histories are unbounded, and fields left uninitialised have the value a test expects most of the time.", "anchors": ["src/ulfius.c:ulfius_add_endpoint_list", "src/ulfius.c:ulfius_add_endpoint_by_val", "src/ulfius.c:ulfius_remove_endpoint_by_val", "src/ulfius.c:ulfius_equals_endpoints"]}
{"id": "C145", "title": "Messages of libmicrohttpd are logged as they are", "statement": "Every message libmicrohttpd gives to its logger is written to the log of the program as libmicrohttpd formatted it, behind \"MHD - \".", "quantifier": "every format, all arguments, every vsnprintf that copies the text outside of conversions", "why_tests_cant": "Which messages contain a percent sign depends on the texts sent by clients; most runs of a test log nothing of the kind.", "anchors": ["src/ulfius.c:mhd_redirect_log"]}
{"id": "C146", "title": "The options of uwsc take effect", "statement": "Every option of the help text of uwsc can be given by its letter or name, with its value attached or as the next argument, in any order, before or behind the URL: uwsc connects to the URL with exactly these settings, the last value given counting. It does not connect without a URL, with both a text and a binary file, or with a header that has no colon.", "quantifier": "all command lines made of options of the help text and operands", "why_tests_cant": "The ways to write, repeat and order thirteen options are unbounded; the failing ones look like the others.", "anchors": ["tools/uwsc/uwsc.c:main"]}
{"id": "C147", "title": "Parameters arrive as they were set", "statement": "When a program sends a request with ulfius_send_http_request to a server of the library, the callback finds in map_url exactly the arguments of the URL and the parameters of map_url of the client, and in map_post_body exactly the parameters of map_post_body of the client, each with its name and value (those given several times joined by commas), up to max_post_param_size, however libmicrohttpd hands over the body.", "quantifier": "all URLs, all maps of names and values of any bytes, all ways libmicrohttpd cuts values into parts, with and without UTF-8 checks", "why_tests_cant": "It joins two programs with a wire format between them; names, values, escapes and cuts are unbounded.", "anchors": ["src/u_send_request.c:ulfius_send_http_streaming_request_max_header", "src/ulfius.c:ulfius_fill_map", "src/ulfius.c:ulfius_fill_map_check_utf8", "src/ulfius.c:mhd_iterate_post_data", "src/ulfius.c:ulfius_webservice_dispatcher"]}
{"id": "C148", "title": "Uploaded files go to the upload callback", "statement": "Once a callback is set with ulfius_set_upload_file_callback_function, every block of every uploaded file is given to it once, in order, with its name, type, offset and size, until the callback refuses one; files are not kept in the request, while the fields of the form arrive in map_post_body as without files. The upload is taken to its end in any case. The callback cannot be removed.", "quantifier": "every callback with any state, every upload in any parts, whatever libmicrohttpd finds in them, every limit", "why_tests_cant": "How blocks and parts fall, and when the callback refuses, is up to the network and the program; a test sees one sequence.", "anchors": ["src/ulfius.c:mhd_iterate_post_data", "src/ulfius.c:ulfius_webservice_dispatcher", "src/ulfius.c:ulfius_set_upload_file_callback_function"]}
{"id": "C149", "title": "A websocket client and server of the library open a connection with each other", "statement": "A request prepared with ulfius_set_websocket_request and sent to an endpoint that has a sub-protocol in common with it is upgraded with the accept value of its key and the first common sub-protocol; the client that reads this answer opens the connection with status 101, both sides hold this sub-protocol, and of extensions registered by name exactly the common ones are enabled on both sides.", "quantifier": "every request with any headers, all lists of sub-protocols and extensions, every server, every answer cut into any segments, with other lines in any order", "why_tests_cant": "Both ends work with a lenient partner; that they agree for all lists and orders needs both programs and the text between them.", "anchors": ["src/u_websocket.c:ulfius_set_websocket_request", "src/ulfius.c:ulfius_webservice_dispatcher", "src/u_websocket.c:ulfius_websocket_connection_handshake", "src/u_websocket.c:ulfius_init_websocket_manager"]}
{"id": "C150", "title": "The answer of the callbacks arrives at a client of the library", "statement": "When the callbacks of an endpoint leave headers, cookies, a body and a status in the response, a program that sends the request with the functions of the library gets U_OK and a response with this status (401 after U_CALLBACK_UNAUTHORIZED), exactly this body, and under the name of each header the value that was set, several values of one name in order and joined by commas; it gets status 500 after U_CALLBACK_ERROR and 404 where no callback is registered.", "quantifier": "every instance, every chain of callbacks with or without default endpoint, all headers, cookies and bodies, every cutting of the body into blocks, every set of further header lines", "why_tests_cant": "A test compares one answer; that both programs agree for all headers, bodies and cuttings needs the two of them and the text between them.", "anchors": ["src/ulfius.c:ulfius_webservice_dispatcher", "src/u_response.c:ulfius_set_response_header", "src/u_response.c:ulfius_set_response_cookie", "src/u_send_request.c:ulfius_send_http_request", "src/u_send_request.c:ulfius_send_http_request_with_limit"]}
{"id": "C151", "title": "Headers and cookies arrive as they were set", "statement": "When a program sends a request with the functions of the library to a server of the library, the callback finds in map_header every header of the request under its name with its value, and in map_cookie exactly the cookies of the request with their values; a header that is sent several times, in whatever case its name is written, is found with all its values.", "quantifier": "every header map and cookie map, with and without a form, whatever further headers libcurl adds, with and without UTF-8 checks", "why_tests_cant": "Client and server are tested with a few headers; that nothing is lost or changed for all names and values needs both programs and the text between them.", "anchors": ["src/u_send_request.c:ulfius_send_http_streaming_request_max_header", "src/ulfius.c:ulfius_webservice_dispatcher", "src/ulfius.c:ulfius_fill_map", "src/ulfius.c:ulfius_fill_map_check_utf8"]}
{"id": "C152", "title": "Closing a websocket from another thread does not garble what is received", "statement": "While threads of the program close a websocket with ulfius_websocket_send_message(U_WEBSOCKET_OPCODE_CLOSE), and wait for the answer of the peer by reading frames, the thread of the websocket goes on reading too. Every frame is read whole by exactly one of them, in order, and the callback for incoming messages gets only messages the peer sent, each complete and unchanged.", "quantifier": "every stream of frames, any number of closing threads, every interleaving of their steps down to single bytes", "why_tests_cant": "The threads meet in a window of microseconds; no test controls the scheduler or runs all interleavings.", "anchors": ["src/u_websocket.c:ulfius_read_incoming_message", "src/u_websocket.c:ulfius_thread_websocket", "src/u_websocket.c:ulfius_websocket_send_fragmented_message", "src/u_websocket.c:read_data_from_socket"]}
{"id": "C153", "title": "The message history can be used while messages come in", "statement": "With U_WEBSOCKET_KEEP_INCOMING the thread of the websocket and every thread that closes it put messages into the history, and the program takes them out with ulfius_websocket_pop_first_message in any thread. Every message put is either taken exactly once, in the order in which they were put, or still in the list; nothing else is ever taken.", "quantifier": "any number of threads, any calls, every interleaving", "why_tests_cant": "The threads meet inside a few instructions; no test controls the scheduler or runs all interleavings.", "anchors": ["src/u_websocket.c:ulfius_push_websocket_message", "src/u_websocket.c:ulfius_websocket_pop_first_message", "src/u_websocket.c:ulfius_thread_websocket", "src/u_websocket.c:ulfius_websocket_send_fragmented_message"]}
{"id": "C154", "title": "A callback can see which address a request comes from", "statement": "request->client_address holds the address of the client that sent the request: a program that reads it as the structure of its family gets the address and the port of the client, for IPv4 and IPv6, also from a copy of the request; get_ip_source of the example callback shows this address, different for different clients.", "quantifier": "every address of a client", "why_tests_cant": "The space of addresses is too large to test, and tests run on one machine with one address.", "anchors": ["src/ulfius.c:ulfius_webservice_dispatcher", "src/u_request.c:ulfius_copy_request", "example_callbacks/iddawc_jwt_profile/iddawc_resource.c:get_ip_source"]}
{"id": "C155", "title": "User and password arrive as they were set", "statement": "A user and a password set in a request of the HTTP client (auth_basic_user, auth_basic_password) or in the URL of a websocket are what the callbacks of a server of the library see in auth_basic_user and auth_basic_password; if the client sets only one of them, the server sees neither. The example server lets exactly one pair pass.", "quantifier": "every request, every user and password", "why_tests_cant": "The pairs of strings cannot be enumerated; a test uses a few simple names.", "anchors": ["src/u_send_request.c:ulfius_send_http_streaming_request_max_header", "src/ulfius.c:ulfius_webservice_dispatcher", "src/u_websocket.c:ulfius_open_websocket_client_connection", "example_programs/auth_example/auth_server.c:callback_auth_basic_body"]}
{"id": "C156", "title": "A JSON value arrives as it was set, in both directions", "statement": "A JSON value set as the body of a request with ulfius_set_json_body_request is what a callback of the server gets with ulfius_get_json_body_request; a JSON value set by the callback with ulfius_set_json_body_response is what the client gets with ulfius_get_json_body_response; whatever blocks the bodies travel in.", "quantifier": "every value, every request and response, every cut of the bodies into blocks", "why_tests_cant": "The cuts into blocks are chosen by the network; values and combinations with other headers and parameters are unbounded.", "anchors": ["src/u_request.c:ulfius_set_json_body_request", "src/u_request.c:ulfius_get_json_body_request", "src/u_response.c:ulfius_get_json_body_response", "src/ulfius.c:ulfius_webservice_dispatcher", "src/u_send_request.c:ulfius_send_http_request_with_limit"]}
{"id": "C157", "title": "A file arrives as it is", "statement": "A request for a file below the directory of the static file callback is answered with status 200, the media type registered for its extension, the configured headers and the content of the file, whatever buffers the stream is read in; a name that does not exist is answered with 404, or with 302 and the configured location.", "quantifier": "every file system, every file and name, every configuration, every series of buffers", "why_tests_cant": "The sizes of the buffers are chosen by libmicrohttpd and the network; names, contents and configurations are unbounded.", "anchors": ["example_callbacks/static_file/static_file_callback.c:callback_static_file", "example_callbacks/static_file/static_file_callback.c:get_filename_ext", "example_callbacks/static_file/static_file_callback.c:callback_static_file_stream", "src/u_response.c:ulfius_set_stream_response", "src/ulfius.c:ulfius_webservice_dispatcher"]}
{"id": "C158", "title": "A compressed page is the page", "statement": "Whatever requests came before, a request for a file of a website served by the compressed website callback is answered with status 200, headers and bytes from which a client that undoes the codings named in them reads exactly the content of the file; the coding is one the client accepts and the configuration allows; the rest of the headers does not depend on the coding or on the cache. A name under which no file can be opened is left to the callbacks behind, or answered with status 302 and the configured location.", "quantifier": "every file system, configuration, Accept-Encoding header, every series of earlier requests, every zlib that can be undone", "why_tests_cant": "The state of the caches depends on the whole history of requests; contents and names are unbounded.", "anchors": ["example_callbacks/static_compressed_inmemory_website/static_compressed_inmemory_website_callback.c:callback_static_compressed_inmemory_website", "example_callbacks/static_compressed_inmemory_website/static_compressed_inmemory_website_callback.c:callback_static_file_uncompressed", "src/u_map.c:u_map_put_binary", "src/ulfius.c:ulfius_webservice_dispatcher"]}
{"id": "C159", "title": "Requests for one compressed website at the same time", "statement": "When several threads serve files of one compressed website with its cache, in any interleaving, each request is answered with the whole compressed file of the name asked for, and the cache has each file once.", "quantifier": "every number of threads, every list of requests of each, every interleaving of statements", "why_tests_cant": "Tests see a few interleavings; the wrong ones need a switch between two particular statements.", "anchors": ["example_callbacks/static_compressed_inmemory_website/static_compressed_inmemory_website_callback.c:callback_static_compressed_inmemory_website", "src/u_map.c:u_map_put_binary", "src/u_map.c:u_map_get", "src/u_map.c:u_map_get_length", "src/u_map.c:u_map_has_key"]}
{"id": "C160", "title": "The proxy example passes requests and answers on", "statement": "For every request, the callback of the proxy example makes exactly one request to the origin, with the method, path, parameters, headers (but Host) and body of the client's request, and the client gets the status, the values of all headers and the body of the origin; if the origin cannot be reached the client gets an error.", "quantifier": "every request, every answer of the origin, every behaviour of libcurl and libmicrohttpd", "why_tests_cant": "A request is copied, changed, sent, answered, parsed and copied again; a test follows a few of the combinations of headers, parameters and bodies.", "anchors": ["example_programs/proxy_example/proxy.c:callback_get", "src/u_response.c:ulfius_copy_response", "src/u_request.c:ulfius_duplicate_request", "src/u_send_request.c:ulfius_send_http_request", "src/ulfius.c:ulfius_webservice_dispatcher"]}
{"id": "C161", "title": "What a callback writes last is what the client gets", "statement": "For every series of calls of the response functions (bodies, streams, headers, cookies, options) made by a callback that returns CONTINUE or COMPLETE, the client gets the status given last, the body or stream given last, every header with the value given last, and one Set-Cookie line for each cookie name with the value and attributes given last.", "quantifier": "every series of calls with every arguments, every default headers", "why_tests_cant": "The calls can be combined in unboundedly many orders; each setter is tested alone.", "anchors": ["src/u_response.c:ulfius_set_string_body_response", "src/u_response.c:ulfius_set_binary_body_response", "src/u_response.c:ulfius_set_empty_body_response", "src/u_response.c:ulfius_set_stream_response", "src/u_response.c:ulfius_set_json_body_response", "src/u_response.c:ulfius_set_response_properties", "src/u_response.c:ulfius_add_header_to_response", "src/u_response.c:ulfius_add_same_site_cookie_to_response", "src/ulfius.c:ulfius_webservice_dispatcher"]}
{"id": "C162", "title": "A conversation over a websocket is complete and comes to an end", "statement": "When a client and a server of the library are connected by a websocket, each end gets the messages its peer sent before it closed, all of them, unchanged, in order and once, with the extensions they agreed upon or without. When the program of one end asks for the close, both ends come to an end within a bounded number of rounds of their loops, and each calls its onclose callback once.", "quantifier": "every sequence of messages, pings and close signals of both programs, every interleaving of the two loops with them, every delay of data and of hang-ups, every set of extensions without context that undo what they did", "why_tests_cant": "Two loops and two programs run at the same time, and the network decides when each of them sees what; tests see a few orders only, with both ends fast.", "anchors": ["src/u_websocket.c:ulfius_thread_websocket", "src/u_websocket.c:ulfius_websocket_send_message", "src/u_websocket.c:ulfius_websocket_send_fragmented_message", "src/u_websocket.c:ulfius_websocket_send_close_signal", "src/u_websocket.c:ulfius_websocket_status", "src/u_websocket.c:ulfius_read_incoming_message", "src/u_websocket.c:ulfius_close_websocket", "src/u_websocket.c:is_websocket_data_available"]}
{"id": "C163", "title": "A websocket callback that answers messages, like the echo example, serves its peer in order", "statement": "When the callback for incoming messages of one end answers each message with messages, as websocket_echo_message_callback does, the peer gets the answers to the messages it sent, unchanged, in the order of its messages, each once and without gaps; as long as no program asks for the close it gets all of them; and also when it asks for the close after its last message it gets all of them before the connection ends.", "quantifier": "every callback whose answers depend on the message and what it remembers, every sequence of messages, pings and close signals, every interleaving of the callback with the loops and other threads, every delay of data and of hang-ups, every set of extensions without context that undo what they did", "why_tests_cant": "The callback runs in the thread of the loop while the peer goes on sending; tests wait for each answer before they send the next message.", "anchors": ["src/u_websocket.c:ulfius_thread_websocket", "src/u_websocket.c:ulfius_websocket_send_message", "src/u_websocket.c:ulfius_websocket_send_close_signal", "example_programs/websocket_example/websocket_server.c:websocket_echo_message_callback"]}
{"id": "C164", "title": "Compression with permessage-deflate cannot be seen in a conversation", "statement": "When a client and a server of the library agreed on permessage-deflate, with or without context takeover, their programs see exactly what they would see without it: each call that sends a message succeeds or fails alike, each end gets the messages its peer sent before it closed, unchanged, in order and once, none held back in a buffer of zlib, and closing takes the same course. This is for messages below 4 GiB that an end sends one at a time.", "quantifier": "every zlib that restores what it compressed, every sequence of messages, pings and close signals of both programs, every interleaving of the two loops with them, every delay of data and of hang-ups", "why_tests_cant": "Each message is compressed with what was sent before and read when much more may be on its way; tests send a few messages and wait for each.", "anchors": ["src/u_websocket.c:websocket_extension_message_out_deflate", "src/u_websocket.c:websocket_extension_message_in_inflate", "src/u_websocket.c:ulfius_websocket_extension_message_in_perform_apply", "src/u_websocket.c:ulfius_thread_websocket", "src/u_websocket.c:ulfius_add_websocket_deflate_extension", "src/u_websocket.c:ulfius_add_websocket_client_deflate_extension"]}
{"id": "C165", "title": "Data shared between callbacks are freed exactly once", "statement": "Data that callbacks hand to the response with ulfius_set_response_shared_data together with a function that frees them are given to that function exactly once, when other data take their place or after the answer to the request was queued; a callback that reads them gets the data set last, and they have not been freed.", "quantifier": "all chains of callbacks with or without a default endpoint, all programs of calls on the response that may depend on everything the callback sees, all return codes, all instances", "why_tests_cant": "The functions run inside the library, at times that depend on the return codes and calls of all callbacks of the chain; a double or missing call shows only under a memory checker for the particular chain tested.", "anchors": ["src/u_response.c:ulfius_set_response_shared_data", "src/u_response.c:ulfius_set_response_properties", "src/ulfius.c:ulfius_webservice_dispatcher"]}
{"id": "C166", "title": "A request carries the certificate its client proved to own", "statement": "A callback finds a certificate in request->client_cert exactly when the instance authenticates clients, the connection is encrypted and GnuTLS verified the chain of the client, and it is the first certificate of that chain; a duplicate of the request has the same certificate, a certificate put into a request replaces it, nothing done to one request changes that of another, and every certificate object is freed exactly once.", "quantifier": "all sequences of requests from all clients (with or without TLS, all verification results, all chains), duplications, imports and cleanings in any order", "why_tests_cant": "The tests verify one certificate of one authority; who is authenticated and who owns the object depends on the verification result, the status, the chain and the order of copies and cleanings; leaks and stale pointers do not show in a test.", "anchors": ["src/ulfius.c:ulfius_webservice_dispatcher", "src/u_request.c:ulfius_copy_request", "src/u_request.c:ulfius_import_client_certificate_pem", "src/u_request.c:ulfius_export_client_certificate_pem", "src/u_request.c:ulfius_clean_request", "src/u_request.c:ulfius_duplicate_request", "example_programs/auth_example/auth_server.c:callback_auth_client_cert"]}
{"id": "C167", "title": "Cookies come back with the next request", "statement": "When callbacks set cookies and a client of the library puts the cookies of the response over those it has and sends them with its next request, the callback of that request finds under every name the value that was set last, and nothing under names that were never set; so the cookie test page of the simple example counts the visits of each client.", "quantifier": "all cookies and earlier cookies of the client, all answers that carry them, all orders in which libcurl lists them, any number of visits, all requests around them", "why_tests_cant": "The tests set one cookie in one answer and send one in another test; the circle (response line, cookie list of libcurl, response structure, request map, Cookie line, map of the next request) and what a long series of visits does to a number kept at the client is never run.", "anchors": ["src/u_response.c:ulfius_add_cookie_to_response", "src/u_response.c:ulfius_generate_cookie_header", "src/u_response.c:ulfius_set_response_cookie", "src/u_send_request.c:ulfius_send_http_streaming_request_max_header", "src/ulfius.c:ulfius_webservice_dispatcher", "example_programs/simple_example/simple_example.c:callback_get_cookietest"]}
{"id": "C168", "title": "The sheep counter counts every request", "statement": "Every answer of the sheep counter example tells the number of sheep after its request: the number a POST request brings (0 without one), one more for a PUT request, 0 for a DELETE request; the answer is JSON, and a client that accepts compression can decode it to the same text; every request is counted, from whichever clients and at whatever times they come.", "quantifier": "all sequences of requests with all methods, headers and bodies, all results of compression; all interleavings of requests at the same time", "why_tests_cant": "Callbacks of one endpoint run in several threads and share their user data; a test makes one request after the other, and cannot choose the interleavings or the numbers at the end of the range.", "anchors": ["example_programs/sheep_counter/sheep_counter.c:callback_sheep_counter_start", "example_programs/sheep_counter/sheep_counter.c:callback_sheep_counter_add", "example_programs/sheep_counter/sheep_counter.c:callback_sheep_counter_reset", "example_callbacks/http_compression/http_compression_callback.c:callback_http_compression", "src/u_request.c:ulfius_endpoint_match", "src/ulfius.c:ulfius_webservice_dispatcher"]}
{"id": "C169", "title": "A callback that refuses a request protects the endpoints behind it", "statement": "If for a request every protected endpoint has before it, by its priority, an endpoint that is meant for the same request and whose callback refuses it, then no protected callback is called, whatever the other callbacks do and in whatever order the endpoints were registered, and the client gets the refusal: 401 with its lines, body and realm. So the example with several callbacks gives its data only to the right user and password.", "quantifier": "all sets of endpoints in all orders of registration, all priorities, all callbacks, all URLs and methods, all credentials, every order qsort may choose for equal priorities", "why_tests_cant": "Protection depends on the matching of methods and URLs, the unspecified order of equal priorities and every callback in the chain; a test tries a few URLs and methods with one sort implementation.", "anchors": ["src/u_request.c:ulfius_endpoint_match", "src/u_request.c:compare_endpoint_priorities", "src/ulfius.c:ulfius_webservice_dispatcher", "example_programs/multiple_callbacks_example/multiple_callbacks_example.c:callback_multiple_level_auth_check", "example_programs/multiple_callbacks_example/multiple_callbacks_example.c:callback_multiple_level_auth_data"]}
{"id": "C170", "title": "The example with several callbacks answers with the levels of the path", "statement": "A GET request below /multiple/zero is answered 200 with the names of the levels its path goes through, one per line, up to the callback that completes the request; other methods get an empty page there; a path without endpoint gets 404 from the default endpoint. Every answer has the default header. The string the callbacks share is read only while it lives, is freed exactly once if it was made, and is never lost.", "quantifier": "all URLs and methods (in any letter case, with any slashes), all credentials", "why_tests_cant": "The answer depends on which of ten overlapping endpoints match and on the order the sort gives them; a test tries some URLs and does not see the life of the shared block.", "anchors": ["example_programs/multiple_callbacks_example/multiple_callbacks_example.c:callback_multiple_level_zero", "example_programs/multiple_callbacks_example/multiple_callbacks_example.c:callback_multiple_level_one", "example_programs/multiple_callbacks_example/multiple_callbacks_example.c:callback_multiple_level_one_complete", "example_programs/multiple_callbacks_example/multiple_callbacks_example.c:callback_multiple_level_final", "example_programs/multiple_callbacks_example/multiple_callbacks_example.c:main", "src/u_request.c:ulfius_endpoint_match", "src/ulfius.c:ulfius_webservice_dispatcher"]}
{"id": "C171", "title": "The simple example shows what it received", "statement": "Each request to the simple example selects at most one endpoint, so the unspecified order of endpoints of equal priority plays no role; a request without endpoint gets 404. The page of an endpoint contains the method, the URL and, one per line and in order, every parameter of the URL (the decoded variable segments of the path after the query parameters of the same name), every cookie, header and post parameter with its value. print_map, which six example programs share, writes only inside the blocks it allocates, whatever the map holds, and what it prints determines the entries of the map.", "quantifier": "all methods and URLs, all query parameters, cookies, headers and post parameters, all maps of strings", "why_tests_cant": "The buffer arithmetic of print_map depends on the number and the lengths of all entries, and routing on nine endpoints of equal priority; a test prints a few small maps.", "anchors": ["example_programs/simple_example/simple_example.c:print_map", "example_programs/simple_example/simple_example.c:callback_get_test", "example_programs/simple_example/simple_example.c:callback_get_empty_response", "example_programs/simple_example/simple_example.c:callback_post_test", "example_programs/simple_example/simple_example.c:callback_all_test_foo", "example_programs/simple_example/simple_example.c:callback_default", "example_programs/simple_example/simple_example.c:main", "example_programs/test_u_map/test_u_map.c:print_map", "example_programs/sheep_counter/sheep_counter.c:print_map", "example_programs/request_example/client.c:print_map", "src/u_request.c:ulfius_endpoint_match", "src/u_request.c:ulfius_parse_url"]}
{"id": "C172", "title": "The stream example sends its streams whole", "statement": "GET /stream to the stream example is answered 200 with a text of seven numbered lines, the same whatever buffers libmicrohttpd offers the reader. GET /stream/audio is answered 200 with the media type, the size and exactly the bytes of the file given to the program, whatever the buffers and even if the file grows meanwhile; when the file cannot be opened the answer is 500. Every other request gets 404 and no stream is made.", "quantifier": "all sequences of buffer sizes, all files and their changes while they are sent, all methods and URLs", "why_tests_cant": "The bytes sent depend on the sequence of buffer sizes libmicrohttpd offers and on when the file is changed; a test sees one sequence with large buffers.", "anchors": ["example_programs/stream_example/stream_example.c:callback_get_stream", "example_programs/stream_example/stream_example.c:callback_get_audio_stream", "example_programs/stream_example/stream_example.c:stream_data", "example_programs/stream_example/stream_example.c:stream_audio_file", "example_programs/stream_example/stream_example.c:main", "src/u_response.c:ulfius_set_stream_response", "src/ulfius.c:ulfius_webservice_dispatcher"]}
{"id": "C173", "title": "A websocket that is asked to close comes to its end", "statement": "When the close of a websocket was asked for, by a close signal or by stopping the server, or when its connection is lost, and the manager callback, if there is one, returns when the status is CLOSE, then the thread of the websocket ends and the onclose callback is called exactly once, after the manager callback has returned, whatever the peer has sent, is sending or does not send.", "quantifier": "every behaviour of the peer, including frames that arrive in part and invalid sequences of frames, every interleaving of the thread of the websocket, the manager callback and the threads that ask for the close", "why_tests_cant": "The end depends on the byte at which a peer falls silent and on the interleaving with a second thread; a test cannot wait forever, and tests use well-behaved peers.", "anchors": ["src/u_websocket.c:ulfius_thread_websocket", "src/u_websocket.c:ulfius_thread_websocket_manager_run", "src/u_websocket.c:ulfius_read_incoming_message", "src/u_websocket.c:read_data_from_socket", "src/u_websocket.c:is_websocket_data_available", "src/u_websocket.c:is_websocket_write_available", "src/u_websocket.c:ulfius_merge_fragmented_message", "src/u_websocket.c:ulfius_websocket_send_close_signal", "src/u_websocket.c:ulfius_websocket_status"]}
{"id": "C174", "title": "Opening a websocket comes to an end and tells what the server answered", "statement": "A client that opens a websocket reads the answer of the server until it is complete: a status line other than 101, or the status line 101, header lines and an empty line. Then the call goes on, reports the status of the answer, and does not depend on how the bytes were split, on pauses between them or on what comes later. If the connection is lost before, the call fails within the next pass. In every case the call comes to an end, also when the server says nothing, when reading from the connection fails, or when its answer never ends; and the answer of a server that closes the connection right after it is read.", "quantifier": "every answer, every split of it into reads, every number of pauses and failed reads between them, every point at which the connection is lost", "why_tests_cant": "Whether a loop ends cannot be seen in a test that must end itself, and the order in which the last bytes and the end of the connection arrive is up to the network.", "anchors": ["src/u_websocket.c:ulfius_get_next_line_from_http_response", "src/u_websocket.c:ulfius_websocket_connection_handshake", "src/u_websocket.c:read_data_from_socket", "src/u_websocket.c:is_websocket_data_available"]}
{"id": "C175", "title": "Endpoints can be injected into an instance that runs and removed again", "statement": "Adding an endpoint changes only the answers to requests it is meant for, and so does removing one. When an endpoint that is alone with its method, prefix and format is added and later removed, every request is answered as if it had never been there, whatever other endpoints were added and removed meanwhile. So the injection example answers at every moment exactly the paths that are injected at this moment, each with the greeting of its callback, and everything else with 404.", "quantifier": "all instances, all endpoints, all callbacks, all histories of additions and removals in between, all methods and URLs, every order qsort may choose", "why_tests_cant": "Tests check the answers of the injected endpoint; that no other answer changes is a statement about all other requests and all other endpoints.", "anchors": ["src/ulfius.c:ulfius_add_endpoint", "src/ulfius.c:ulfius_add_endpoint_by_val", "src/ulfius.c:ulfius_remove_endpoint", "src/ulfius.c:ulfius_remove_endpoint_by_val", "src/ulfius.c:ulfius_webservice_dispatcher", "src/u_request.c:ulfius_endpoint_match", "example_programs/injection_example/injection_example.c:main", "example_programs/injection_example/injection_example.c:callback_first", "example_programs/injection_example/injection_example.c:callback_second", "example_programs/injection_example/injection_example.c:callback_third", "example_programs/injection_example/injection_example.c:callback_fourth", "example_programs/injection_example/injection_example.c:callback_fifth"]}
{"id": "C176", "title": "The allocation functions a program chooses get back exactly what they gave", "statement": "A program may replace the allocation functions with o_set_alloc_funcs. Every block then goes back, once, to the functions it came from: those of the program never see a block of malloc, free never sees one of theirs, and once bodies are cleaned nothing is left. This holds for the bodies made by jansson, the credentials taken from libmicrohttpd, the texts escaped by curl, the copy of the body handed to libmicrohttpd and the handle of curl.", "quantifier": "all programs made of starting, closing, setting bodies, sending and serving, all requests, all versions of libmicrohttpd", "why_tests_cant": "A test runs with one version of the libraries and usually with malloc itself, where a block given to the wrong function does no visible harm; the property is about every program and every path.", "anchors": ["src/ulfius.c:ulfius_global_init", "src/ulfius.c:ulfius_global_close", "src/ulfius.c:ulfius_start_secure_ca_trust_framework", "src/ulfius.c:ulfius_start_framework_with_mhd_options", "src/ulfius.c:ulfius_webservice_dispatcher", "src/ulfius.c:ulfius_get_body_from_response", "src/u_request.c:ulfius_clean_request", "src/u_request.c:ulfius_set_json_body_request", "src/u_response.c:ulfius_set_json_body_response", "src/u_send_request.c:ulfius_send_http_request", "src/u_websocket.c:ulfius_websocket_send_json_message"]}
{"id": "C177", "title": "Maps and responses survive running out of memory", "statement": "When an allocation fails in a function on maps or responses, the function says so: it does not answer U_OK, and it answers U_ERROR_MEMORY only if an allocation failed. The objects stay usable: whatever the program calls next, with or without memory, nothing is read or freed that is not there, and once the objects are cleaned nothing is left. A call that answers an error leaves the maps, the headers, the realm and the cookies as they were.", "quantifier": "all programs made of the functions on maps and responses, all choices of the allocations that fail, at any time and any number of times", "why_tests_cant": "A test can make one allocation fail in one program; the property is about every allocation of every call in every program, and about all calls that come after.", "anchors": ["src/u_map.c:u_map_init", "src/u_map.c:u_map_put", "src/u_map.c:u_map_put_binary", "src/u_map.c:u_map_copy", "src/u_map.c:u_map_clean", "src/u_map.c:u_map_clean_full", "src/u_response.c:ulfius_init_response", "src/u_response.c:ulfius_clean_response", "src/u_response.c:ulfius_add_header_to_response", "src/u_response.c:ulfius_set_response_properties", "src/u_response.c:ulfius_add_cookie_to_response", "src/u_response.c:ulfius_set_string_body_response", "src/u_response.c:ulfius_set_binary_body_response", "src/u_response.c:ulfius_set_empty_body_response", "src/u_response.c:ulfius_set_json_body_response", "src/u_response.c:ulfius_generate_cookie_header", "src/u_response.c:ulfius_set_response_cookie", "src/u_response.c:ulfius_export_response_http", "src/ulfius.c:ulfius_get_body_from_response"]}
{"id": "C178", "title": "Running out of memory while a request is routed calls nobody it should not", "statement": "When an allocation fails while the endpoints for a request are looked up, either the callbacks that would have been called anyway are called, all of them and in order of their priorities, or the request is refused or answered 404. No callback is called for a method or a URL it was not registered for, no callback in front of another (a guard) is left out, the default endpoint takes no request that is meant for another one, the callback gets its own user data and URL parameters, and the server does not crash.", "quantifier": "all lists of endpoints, with and without a default endpoint, all methods and URLs, all choices of the allocations that fail", "why_tests_cant": "A test would have to make each single allocation of the lookup fail for each table of endpoints; which endpoint is hit by a failed allocation depends on the whole table and the URL.", "anchors": ["src/u_request.c:ulfius_split_url", "src/u_request.c:ulfius_endpoint_match", "src/u_request.c:ulfius_url_format_match", "src/u_request.c:ulfius_parse_url", "src/ulfius.c:ulfius_copy_endpoint", "src/ulfius.c:ulfius_webservice_dispatcher"]}
{"id": "C179", "title": "A callback is shown the whole request, also when memory runs out while it is read", "statement": "When an allocation fails while a request is read, either the connection is refused or the callbacks find all headers, query parameters and cookies with all their values, and the whole body up to the limit of the instance. Nothing undefined happens.", "quantifier": "all requests, all choices of the allocations that fail while the request is read", "why_tests_cant": "Which header is hit depends on the moment at which memory runs out; a missing header is a valid request, so nothing in a test run shows that one was lost.", "anchors": ["src/ulfius.c:ulfius_fill_map_check_utf8", "src/ulfius.c:ulfius_fill_map", "src/ulfius.c:ulfius_webservice_dispatcher", "src/u_map.c:u_map_put", "src/u_map.c:u_map_put_binary", "src/u_map.c:u_map_get", "src/u_map.c:u_map_copy_into"]}
{"id": "C180", "title": "The name of an uploaded file is the one the client gave with it", "statement": "When no upload callback is set and a form holds a file, the parameter named after the part with _filename behind it, read as a C string, is the file name the client gave with the first file of that name, whatever other parts the form has.", "quantifier": "all forms, all cuts into blocks, all settings of the instance", "why_tests_cant": "The parameter shares one map with the fields of the form, whose names the client chooses; tests use forms without such names.", "anchors": ["src/ulfius.c:mhd_iterate_post_data", "src/ulfius.c:ulfius_webservice_dispatcher", "src/u_map.c:u_map_put", "src/u_map.c:u_map_has_key", "src/u_map.c:u_map_put_binary"]}
{"id": "C181", "title": "Running out of memory while working on a request is reported, and nothing else is harmed", "statement": "When an allocation fails in a function on requests (init, copy, duplicate, setting texts, parameters and bodies, clean) or in the functions that make, begin and end the request of a connection, the call answers an error, nothing is read or freed that is not there, no block is lost once everything is cleaned, and the requests are what they were, except that a body may be gone.", "quantifier": "all programs on any number of requests and connections, all ways in which allocations fail", "why_tests_cant": "A test makes all allocations succeed; the failing ones are the 29 places the code does not look at, each of which needs its own injected fault.", "anchors": ["src/u_request.c:ulfius_init_request", "src/u_request.c:ulfius_clean_request", "src/u_request.c:ulfius_copy_request", "src/u_request.c:ulfius_duplicate_request", "src/u_request.c:ulfius_set_string_body_request", "src/u_request.c:ulfius_set_binary_body_request", "src/u_request.c:ulfius_set_json_body_request", "src/u_request.c:ulfius_set_request_properties", "src/ulfius.c:ulfius_uri_logger", "src/ulfius.c:ulfius_webservice_dispatcher", "src/ulfius.c:mhd_request_completed"]}
{"id": "C182", "title": "Running out of memory while endpoints are registered is reported, and the list of endpoints stays right", "statement": "When an allocation fails while an instance is initialised, an endpoint is added or removed, or the default endpoint is set, the call does not answer U_OK, nothing is read or freed that is not there, no block is lost once the instance is cleaned, and every later request is compared with exactly the endpoints whose registration answered U_OK, without those whose removal did.", "quantifier": "all programs of initialising, adding, removing, requests and cleaning, all ways in which allocations fail", "why_tests_cant": "A test makes all allocations succeed; 13 places need an injected fault each, and most harm shows only at the next request, removal or clean.", "anchors": ["src/ulfius.c:internal_ulfius_init_instance", "src/ulfius.c:ulfius_clean_instance", "src/ulfius.c:ulfius_clean_endpoint_list", "src/ulfius.c:ulfius_copy_endpoint", "src/ulfius.c:ulfius_add_endpoint", "src/ulfius.c:ulfius_remove_endpoint", "src/ulfius.c:ulfius_set_default_endpoint", "src/u_request.c:ulfius_endpoint_match"]}
{"id": "C183", "title": "Running out of memory on a websocket ends it or is reported, and no message is changed or lost unnoticed", "statement": "When an allocation fails while a websocket receives, sends or keeps messages, the callback has been shown the messages of the other side whole and in order, and the connection ends with the failure; a call that sends answers U_OK exactly if the whole message was sent, otherwise nothing was; the messages kept are the ones shown and sent, nothing is read or freed that is not there, and no block is lost once the websocket is gone.", "quantifier": "all sequences of frames, sends, closes and pops, with or without extensions, all ways in which allocations fail", "why_tests_cant": "Tests make all allocations succeed; what happens depends on which of the twenty-three places fails, how many messages are kept and what comes afterwards.", "anchors": ["src/u_websocket.c:ulfius_read_incoming_message", "src/u_websocket.c:ulfius_thread_websocket", "src/u_websocket.c:ulfius_merge_fragmented_message", "src/u_websocket.c:ulfius_websocket_extension_message_in_perform_apply", "src/u_websocket.c:ulfius_build_message", "src/u_websocket.c:ulfius_build_frame", "src/u_websocket.c:ulfius_send_websocket_message_managed", "src/u_websocket.c:ulfius_websocket_send_fragmented_message", "src/u_websocket.c:ulfius_push_websocket_message", "src/u_websocket.c:ulfius_websocket_pop_first_message", "src/u_websocket.c:ulfius_clear_websocket_message_list", "src/u_websocket.c:ulfius_init_websocket_manager", "src/u_websocket.c:ulfius_clear_websocket_manager"]}
{"id": "C184", "title": "A request that cannot be sent as it is for want of memory is not sent", "statement": "When allocations fail during ulfius_send_http_request or one of its variants, the call has no undefined behaviour, it answers U_OK only if the transfer it made and the response it filled are exactly those of the same call with enough memory, and otherwise it has made that transfer or none: never a request without its credentials, verb, parameters, headers or cookies.", "quantifier": "all requests and responses, all limits, all behaviours of libcurl that refuses a URL which is none, all ways in which allocations fail", "why_tests_cant": "A test makes all allocations succeed; which of some thirty places goes unnoticed, and that a combination of failures at the others stays harmless, needs every subset of failures for every request.", "anchors": ["src/u_send_request.c:ulfius_send_http_request", "src/u_send_request.c:ulfius_send_http_request_with_limit", "src/u_send_request.c:ulfius_send_http_streaming_request", "src/u_send_request.c:ulfius_send_http_streaming_request_max_header", "src/u_send_request.c:ulfius_write_body", "src/u_send_request.c:write_header", "src/u_request.c:ulfius_duplicate_request", "src/u_request.c:ulfius_copy_request"]}
{"id": "C185", "title": "A mail that cannot be made for want of memory is not sent", "statement": "When allocations fail during ulfius_send_smtp_rich_email or ulfius_send_smtp_email, U_OK is answered only if exactly the mail asked for was sent, and otherwise that mail or none was sent: never one without some of its recipients, or with another text.", "quantifier": "all arguments, all behaviours of libcurl, all ways in which allocations fail", "why_tests_cant": "Each of the allocations has to fail, alone and together with others, for every combination of optional arguments; a test makes all of them succeed.", "anchors": ["src/u_send_request.c:ulfius_send_smtp_rich_email", "src/u_send_request.c:ulfius_send_smtp_email"]}
{"id": "C186", "title": "A form that cannot be stored for want of memory is not shown in part", "statement": "When allocations fail while a form is received, the endpoints are called only if the whole form is in map_post_body; a client never gets an answer made from a part of its form, and nothing is undefined.", "quantifier": "all forms, however they are cut into parts and blocks, all ways in which allocations fail", "why_tests_cant": "Each allocation of the map has to fail at every block of every form; a test makes all of them succeed.", "anchors": ["src/ulfius.c:mhd_iterate_post_data", "src/ulfius.c:ulfius_webservice_dispatcher", "src/u_map.c:u_map_put_binary"]}
{"id": "C187", "title": "A server with websockets can be stopped after memory ran out", "statement": "Whatever websockets were opened and ended before, and whichever allocations failed then, ulfius_stop_framework tells every open websocket to close, each once, reads no memory that is not allocated and written, and returns once the last open websocket has ended.", "quantifier": "all sequences of websockets that open and end, all ways in which allocations fail", "why_tests_cant": "The array of open websockets has to fail to grow or shrink at each of its sizes, followed by any further history; in a test memory is enough.", "anchors": ["src/u_websocket.c:ulfius_instance_add_websocket_active", "src/u_websocket.c:ulfius_instance_remove_websocket_active", "src/ulfius.c:ulfius_stop_framework"]}
{"id": "C188", "title": "Data of a stream are freed exactly once", "statement": "Data handed to a response with ulfius_set_stream_response are given to the function handed over with them exactly once, after the answer was sent or when the request ends otherwise, whatever the callbacks do and return; never twice, and never other data.", "quantifier": "all chains of callbacks that make any calls and choose them by what they read, all codes they return, with and without default endpoint, all headers libmicrohttpd accepts or refuses", "why_tests_cant": "A leaked stream shows nothing in an answer; the cases depend on the code returned, on which endpoint set the stream and on whether a later one or the default endpoint takes the request over.", "anchors": ["src/ulfius.c:ulfius_webservice_dispatcher", "src/u_response.c:ulfius_set_stream_response"]}
{"id": "C189", "title": "The list of the keys or of the values of a map belongs to the caller", "statement": "A program asks a map for the list of its keys or of its values (u_map_enum_keys, u_map_enum_values). The two lists have the same length and the same order: the keys in the order they were first put, beside each key the value u_map_get gives (the empty string where the value is NULL). The list is the caller's own: it goes on showing the map as it was when the list was asked for whatever is done to the map afterwards, it may be freed with u_map_clean_enum as the header says, and doing so leaves the map alone.", "quantifier": "for all programs made of changes of the map (put, remove by key, remove by index, empty), requests of lists, readings of lists and frees of lists, in any order", "why_tests_cant": "A test reads a list at once and never frees it; the array it reads is the one of the map, so every later change or free is a different program, and there is no end of orders to try.", "anchors": ["src/u_map.c:u_map_enum_keys", "src/u_map.c:u_map_enum_values", "src/u_map.c:u_map_clean_enum", "src/u_map.c:u_map_put_binary", "src/u_map.c:u_map_remove_at", "src/u_map.c:u_map_empty", "src/u_map.c:u_map_clean"]}
{"id": "C190", "title": "A websocket that cannot be opened as it should for want of memory is refused", "statement": "A client asks for a websocket and memory runs out anywhere on the way. Either the server gives just the answer it would give with enough memory (same accept key, same sub-protocol, same extensions announced and in use) and the websocket is active, or the client is refused with an error or a closed connection, the onclose callback of the application is called once, and nothing stays allocated. In no case is a websocket opened for a request that would be refused, and the server does not crash.", "quantifier": "all requests, all sub-protocols, extensions and extension callbacks of the application, all ways in which the allocations of the handshake fail", "why_tests_cant": "Some twenty allocations lie on the way, several of them once per item the client offers; a test runs with enough memory, and a handshake that loses one string still looks like a handshake.", "anchors": ["src/ulfius.c:ulfius_webservice_dispatcher", "src/u_websocket.c:ulfius_init_websocket", "src/u_websocket.c:ulfius_init_websocket_manager", "src/u_websocket.c:ulfius_check_list_match", "src/u_websocket.c:ulfius_check_first_match", "src/u_websocket.c:ulfius_generate_handshake_answer", "src/u_websocket.c:ulfius_clear_websocket"]}
{"id": "C191", "title": "An answer that cannot be made for want of memory is an error, not another answer", "statement": "Whichever allocations fail between the callbacks and the client, the client gets the answer the callbacks asked for (status, headers, cookies, realm, body), or an answer 500, or its connection is closed; it never gets an answer that looks like a success but lacks headers, cookies or body. What the response owns is freed in each case.", "quantifier": "all chains of callbacks, all default endpoints, default headers and realms, all ways in which the allocations of the dispatcher and of libmicrohttpd fail", "why_tests_cant": "A test runs with enough memory; the wrong answers need one allocation out of a dozen to fail and are well-formed HTTP responses.", "anchors": ["src/ulfius.c:ulfius_webservice_dispatcher", "src/ulfius.c:ulfius_get_body_from_response", "src/u_response.c:ulfius_set_response_header", "src/u_response.c:ulfius_set_response_cookie", "src/u_map.c:u_map_copy"]}
{"id": "C192", "title": "A client websocket opened while memory runs out is the one asked for", "statement": "An application opens a websocket and memory runs out on the way. If ulfius_open_websocket_client_connection returns U_OK, the server was sent the whole request, with the credentials of the URL, and the websocket has the sub-protocol, the extensions and the response headers the server agreed to, and its callbacks are given the request. Otherwise the call returns an error. It never crashes, and it never uses a sub-protocol or extension the server did not name.", "quantifier": "all requests, URLs with and without credentials, extensions of the application, replies of the server, and all ways in which the allocations of the call fail", "why_tests_cant": "Each line of the request and each line of the reply has allocations of its own; a test runs with enough memory, and a websocket that was opened without credentials or without an extension looks open.", "anchors": ["src/u_websocket.c:ulfius_open_websocket_client_connection", "src/u_websocket.c:ulfius_websocket_connection_handshake", "src/u_websocket.c:ulfius_websocket_send_frame", "src/u_websocket.c:ulfius_init_websocket", "src/u_websocket.c:ulfius_init_websocket_manager"]}
{"id": "C193", "title": "A compressed message that cannot be sent for want of memory is lost alone", "statement": "Two sides of a websocket use permessage-deflate and memory runs out while one of them sends some of its messages. ulfius_websocket_send_message returns an error for just the messages there was no memory for, and the other side reads just the messages for which it returned U_OK, unchanged and in order: a lost message does not spoil those that are sent behind it.", "quantifier": "all sequences of messages, flush modes and lossless zlib streams, and all ways in which the allocations made for each message fail", "why_tests_cant": "The streams of the two sides must have seen the same data; a message that is lost between zlib and the socket breaks this, and it shows only in later messages whose calls succeeded. A test has no way to make one allocation fail between two messages.", "anchors": ["src/u_websocket.c:ulfius_websocket_send_fragmented_message", "src/u_websocket.c:websocket_extension_message_out_deflate", "src/u_websocket.c:ulfius_send_websocket_message_managed", "src/u_websocket.c:ulfius_build_frame", "src/u_websocket.c:websocket_extension_message_in_inflate"]}
{"id": "C194", "title": "A compressed message that cannot be received for want of memory ends the websocket", "statement": "Two sides of a websocket use permessage-deflate and memory runs out while one of them receives. The callback is shown the messages before the first one there was no memory for, unchanged and in order. That message ends the connection: it is never shown in part, empty or as it came over the wire, and no later message is shown, which could not be read any more. Memory asked for on the way is freed.", "quantifier": "all sequences of messages and flush modes, all lossless zlib streams, and all ways in which the allocations made for each message fail", "why_tests_cant": "The buffer grows in steps of 256 bytes, so where memory runs out depends on the length of the message; a test has no way to make one of these steps fail, and a lost buffer is not seen from outside.", "anchors": ["src/u_websocket.c:ulfius_websocket_extension_message_in_perform_apply", "src/u_websocket.c:websocket_extension_message_in_inflate", "src/u_websocket.c:ulfius_thread_websocket"]}
{"id": "C195", "title": "A website compresses the files of the types that were added", "statement": "A program sets up the compressed website callback, adds media types with u_add_mime_types_compressed and cleans the configuration in the end, and memory may run out on the way. Each call answers U_OK exactly if the type was added. Files are compressed just if their type was added, whatever happened to other calls. Cleaning the configuration frees all of it, and no memory is read that was never written.", "quantifier": "all sequences of types, NULL and empty ones included, all types asked for, and all ways in which the allocations of the calls fail", "why_tests_cant": "The array has a length, a NULL at its end and a pointer that can be lost; they disagree only after an allocation failed in the middle of a sequence of calls.", "anchors": ["example_callbacks/static_compressed_inmemory_website/static_compressed_inmemory_website_callback.c:u_add_mime_types_compressed", "example_callbacks/static_compressed_inmemory_website/static_compressed_inmemory_website_callback.c:u_init_compressed_inmemory_website_config", "example_callbacks/static_compressed_inmemory_website/static_compressed_inmemory_website_callback.c:u_clean_compressed_inmemory_website_config", "example_callbacks/static_compressed_inmemory_website/static_compressed_inmemory_website_callback.c:callback_static_compressed_inmemory_website"]}
{"id": "C196", "title": "A token check that was set up while memory runs out is the one asked for", "statement": "A program sets up the access token check based on iddawc and memory runs out on the way. i_jwt_profile_access_token_init_config reports an error, or the callback lets through just the requests that the check the program asked for lets through, with the same claims: tokens for the audience, with one of the scopes, and with proofs for the URLs of the server.", "quantifier": "all parameters of the setup, all requests, all token and proof verifiers, and all ways in which the steps of the setup fail", "why_tests_cant": "A parameter that was not copied looks like a parameter that was left out, and these mean that anything is allowed; the setup is done once, with enough memory, in a test.", "anchors": ["example_callbacks/iddawc_jwt_profile/iddawc_resource.c:i_jwt_profile_access_token_init_config", "example_callbacks/iddawc_jwt_profile/iddawc_resource.c:callback_check_jwt_profile_access_token", "example_callbacks/iddawc_jwt_profile/iddawc_resource.c:jwt_profile_access_token_check_scope"]}
{"id": "C197", "title": "Negotiating compression when memory runs out takes or refuses the extension as a whole", "statement": "A websocket is opened with permessage-deflate, and memory runs out on the way. The callbacks of the extension on the server and on the client do nothing undefined. They take the extension with the parameters that were offered, with one context that the function for freeing it frees as a whole, and on the server the answer to the client names these parameters. Or they refuse the extension, and nothing stays allocated. When nothing fails the result is that of the usual negotiation.", "quantifier": "all texts of offers and answers, all lists of offers, and all ways in which the allocations of the library and of zlib fail", "why_tests_cant": "A test has enough memory and sends the parameters of a usual browser; a few bytes lost at each handshake, or an extension only one side uses, do not show.", "anchors": ["src/u_websocket.c:websocket_extension_server_match_deflate", "src/u_websocket.c:websocket_extension_client_match_deflate", "src/u_websocket.c:websocket_extension_deflate_free_context"]}
{"id": "C198", "title": "A websocket and its extensions are registered as asked, or not at all, when memory runs out", "statement": "A program makes its response a websocket with ulfius_set_websocket_response, and adds extensions to it or to the handler of a client, and memory runs out in some of these calls. No call does anything undefined. What is registered is what the calls asked for that returned U_OK: the others change nothing. Cleaning the response afterwards is defined and leaves nothing allocated.", "quantifier": "all sequences of calls with all arguments, and all ways in which their allocations fail", "why_tests_cant": "The calls are made once per request with a few bytes to copy; a test never sees one of these copies fail, and freeing a text twice shows only later.", "anchors": ["src/u_websocket.c:ulfius_set_websocket_response", "src/u_websocket.c:ulfius_add_websocket_extension_message_perform", "src/u_websocket.c:ulfius_add_websocket_client_extension_message_perform", "src/u_websocket.c:ulfius_init_websocket_extension", "src/u_websocket.c:ulfius_free_websocket_extension", "src/u_response.c:ulfius_clean_response"]}
{"id": "C199", "title": "A page that cannot be compressed for want of memory is sent as it is, or an error", "statement": "The compression callback runs after the callback that set the body of the response, and memory runs out on the way. It answers U_CALLBACK_ERROR and leaves the response as it was, or the client reads from the response the body that was set before: the header Content-Encoding and the body change together or not at all. Nothing stays allocated. When nothing fails the result is that of the usual callback.", "quantifier": "all requests, all responses with a body below 4 GiB and no Content-Encoding, all lossless compressors, and all ways in which the allocations of the callback fail", "why_tests_cant": "A test has enough memory; a page without its coding, or a coding without its page, arises only when one of two allocations in a row fails.", "anchors": ["example_callbacks/http_compression/http_compression_callback.c:callback_http_compression", "src/u_response.c:ulfius_set_binary_body_response"]}
{"id": "C200", "title": "A static file is sent whole or not at all when memory runs out, and never from elsewhere", "statement": "Memory runs out while the static file callback answers a request. A file below the directory is answered with status 200, its content, its media type and the configured headers, or the answer is an error of the server. A name that is not there is answered with 404, or with 302 and Location, or with an error of the server. A file outside the directory is never opened. Nothing undefined happens.", "quantifier": "all file systems, configurations, URLs and responses, and all ways in which the allocations of the callback fail", "why_tests_cant": "A test has enough memory; each answer given for want of it depends on which of a dozen allocations fails.", "anchors": ["example_callbacks/static_file/static_file_callback.c:callback_static_file", "src/u_response.c:ulfius_set_string_body_response", "src/u_map.c:u_map_copy_into"]}
{"id": "C201", "title": "A compressed website that ran out of memory sends the right pages once memory is back", "statement": "Requests to the compressed website come while memory runs out in any way. Nothing undefined happens, and each of them is answered with the page or with an error. Whatever was stored in the caches meanwhile, a later request that has memory is answered with headers and a body from which the client reads the content of the file, or with a stream of it, or with an error of zlib.", "quantifier": "all file systems with files below 4 GiB, all series of requests of any length, each with its own failing allocations, all lossless compressors", "why_tests_cant": "A test has enough memory, and an entry of the cache that was stored half or under a wrong coding shows only at a later request of another client.", "anchors": ["example_callbacks/static_compressed_inmemory_website/static_compressed_inmemory_website_callback.c:callback_static_compressed_inmemory_website", "example_callbacks/static_compressed_inmemory_website/static_compressed_inmemory_website_callback.c:callback_static_file_uncompressed", "src/u_map.c:u_map_put_binary", "src/u_response.c:ulfius_set_binary_body_response"]}
{"id": "C202", "title": "User data given to a websocket and freed in the onclose callback is freed once and not read afterwards", "statement": "A program follows the websocket example: each request makes a block of user data, gives it to the manager, incoming and onclose callbacks, and the onclose callback frees it. However the websockets of the server are interleaved, no callback reads a block that was freed and none is freed twice; when the websockets are over, every block is freed.", "quantifier": "any number of websockets of the three endpoints, each accepted, refused or failed, with or without memory for the user data, any messages, all interleavings of their threads", "why_tests_cant": "A use after free needs a message or the manager to come after the end of another thread; a leak of a dozen bytes per lost connection is not noticed by a test.", "anchors": ["example_programs/websocket_example/websocket_server.c:callback_websocket", "example_programs/websocket_example/websocket_server.c:callback_websocket_echo", "example_programs/websocket_example/websocket_server.c:callback_websocket_file", "example_programs/websocket_example/websocket_server.c:websocket_onclose_callback", "example_programs/websocket_example/websocket_server.c:websocket_manager_callback", "example_programs/websocket_example/websocket_server.c:websocket_incoming_message_callback", "src/u_websocket.c:ulfius_thread_websocket", "src/ulfius.c:ulfius_webservice_dispatcher"]}
{"id": "C203", "title": "A manager callback may wait for the close of its websocket", "statement": "A manager callback calls ulfius_websocket_wait_close on its own websocket. Once the websocket is closed the wait ends, the callback that heeds the result returns, the onclose callback is called once after it, and the thread of the websocket ends.", "quantifier": "all manager callbacks (any program of sends, looks and waits, loops included), server and client, all interleavings of the thread of the manager and the thread of the websocket, any way the websocket is closed", "why_tests_cant": "The wait and the end of the websocket are in two threads that wait for each other; a test that closes from the callback, or waits in another thread, never has the two meet.", "anchors": ["src/u_websocket.c:ulfius_websocket_wait_close", "src/u_websocket.c:ulfius_thread_websocket", "src/u_websocket.c:ulfius_thread_websocket_manager_run", "example_programs/websocket_example/websocket_server.c:websocket_manager_callback", "example_programs/websocket_example/websocket_server.c:websocket_manager_file_callback"]}
{"id": "C204", "title": "A map that was cleaned is an empty map", "statement": "u_map_clean frees what a map holds. A program may then clean it again, copy it, ask it, count it and put into it as if it were empty; after u_map_init, or by u_map_empty, it is a new map that tells only what was put since.", "quantifier": "all maps, all series of calls with any number of times the map is cleaned in between, all keys and values", "why_tests_cant": "Tests clean a map once, at the end. What is left of it is used only when an error path or a second owner cleans it again.", "anchors": ["src/u_map.c:u_map_clean", "src/u_map.c:u_map_init", "src/u_map.c:u_map_empty", "src/u_map.c:u_map_copy", "src/u_map.c:u_map_copy_into", "src/u_map.c:u_map_count", "src/u_map.c:u_map_put"]}
{"id": "C205", "title": "The function of a streaming request gets the body of the answer, with the pointer given with it", "statement": "ulfius_send_http_streaming_request calls write_body_function with the response body in chunks and passes write_body_data to it. Each chunk is called with exactly that pointer, whatever the request; without a transfer it is not called. The functions of the example client use nothing but what they get.", "quantifier": "all requests and responses, all behaviours of libcurl, all pointers, all series of chunks and all memory behind them", "why_tests_cant": "Tests give a pointer that is not NULL, and short text chunks behind which a NUL happens to be.", "anchors": ["src/u_send_request.c:ulfius_send_http_streaming_request", "src/u_send_request.c:ulfius_send_http_streaming_request_max_header", "example_programs/stream_example/stream_client.c:my_write_body", "example_programs/stream_example/stream_client.c:my_write_meta_body"]}
{"id": "C206", "title": "An example server told to use TLS uses it, with the key and the certificate in the files named", "statement": "simple_example -secure, websocket_server -https and auth_server with three files start a server that speaks TLS with the key and the certificate that the files hold, and auth_server verifies clients against the authority in its third file; if a file cannot be read they do not start. Reading a file never touches memory that is not its own.", "quantifier": "all contents of the files, files that are missing, that change while they are read, pipes, directories; all instances, memory that is there or not", "why_tests_cant": "The programs are not tested; by hand one starts them with good files. What the server does when both files are missing shows only to one who then looks at what the port speaks.", "anchors": ["example_programs/auth_example/auth_server.c:read_file", "example_programs/auth_example/auth_server.c:main", "example_programs/simple_example/simple_example.c:read_file", "example_programs/simple_example/simple_example.c:main", "example_programs/websocket_example/websocket_server.c:read_file", "example_programs/websocket_example/websocket_server.c:main", "src/ulfius.c:ulfius_start_secure_framework", "src/ulfius.c:ulfius_start_secure_ca_trust_framework"]}
{"id": "C207", "title": "A file put into a map is found there, under its name and whole", "statement": "put_file_content_in_map of the map example reads a file and stores it in the map under its name. Afterwards u_map_get and u_map_get_length give the bytes of the file, NULs among them, and their number. A file that cannot be read leaves the map as it is, and this is told.", "quantifier": "all maps, all names and contents, files that are missing, that change while they are read, pipes; memory that is there or not", "why_tests_cant": "The program prints the map for one picture and one text file that do not change, into a map that does not hold them.", "anchors": ["example_programs/test_u_map/test_u_map.c:put_file_content_in_map", "src/u_map.c:u_map_put_binary", "src/u_map.c:u_map_get", "src/u_map.c:u_map_get_length"]}
