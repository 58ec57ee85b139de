{
 "claims": [
  {
   "property": "C01",
   "status": "proved",
   "theorems": [
    "Tophat.C01_sent",
    "Tophat.C01_chunked_framing",
    "Tophat.C01_chunked_completes",
    "Tophat.C01_tiny_buffer_refuted"
   ],
   "note": "C01_sent: for send, on every transport. C01_chunked_framing: for the sender polled with any buffers; that the end is not reported early needs buffers of at least 7 bytes (send uses 8192), with smaller ones it can be (refutation)."
  },
  {
   "property": "C02",
   "status": "proved",
   "theorems": [
    "Tophat.C02_no_premature_end"
   ],
   "note": "For every body reader, header map and sequence of caller's buffers; HexLenOk is what is assumed of the floating point digit count."
  },
  {
   "property": "C03",
   "status": "partial",
   "theorems": [
    "Tophat.C03_no_panic_partial",
    "Tophat.C03_panic_only_if",
    "Tophat.C03_refuted",
    "Tophat.C03_panics"
   ],
   "note": "False of the code (C03_refuted, with the 8192-byte buffer of io::copy); the partial theorem gives the exact condition."
  },
  {
   "property": "C04",
   "status": "proved",
   "theorems": [
    "Tophat.C04_fixed_body"
   ],
   "note": "For every reader and sequence of buffers; the bound says that buffer length plus declared length fit into usize (otherwise the addition at encode.rs:159 overflows)."
  },
  {
   "property": "C05",
   "status": "partial",
   "theorems": [
    "Tophat.C05_completes_partial",
    "Tophat.C05_short_reader_hangs",
    "Tophat.C05_refuted",
    "Tophat.C05_overflow_refuted"
   ],
   "note": "False of the code for readers that end early; proved for readers that yield the declared length or fail."
  },
  {
   "property": "C06",
   "status": "proved",
   "theorems": [
    "Tophat.C06_one_framing_header"
   ],
   "note": "For every header map the http crate can build (Valid); the clock's text has no carriage return."
  },
  {
   "property": "C07",
   "status": "proved",
   "theorems": [
    "Tophat.C07_date"
   ],
   "note": "As C06."
  },
  {
   "property": "C08",
   "status": "proved",
   "theorems": [
    "Tophat.C08_content_type"
   ],
   "note": "As C06."
  },
  {
   "property": "C09",
   "status": "proved",
   "theorems": [
    "Tophat.C09_head_exact",
    "Tophat.C09_status_line",
    "Tophat.C09_reason_phrase",
    "Tophat.C09_reason_distinct",
    "Tophat.C09_head_delivered"
   ],
   "note": "As C06; C09_reason_phrase compares with the table of RFC 7231 (the http crate spells that of 203 differently), C09_reason_distinct says that no two statuses share a phrase."
  },
  {
   "property": "C10",
   "status": "proved",
   "theorems": [
    "Tophat.C10_bytes_written",
    "Tophat.C10_send_returns_partial"
   ],
   "note": "Liveness (that send returns) is not claimed here; C10_send_returns_partial gives it outside C03 and C05."
  },
  {
   "property": "C11",
   "status": "proved",
   "theorems": [
    "Tophat.C11_prefix",
    "Tophat.C11_never_whole"
   ],
   "note": "For every transport; 8192 + length fits into usize."
  },
  {
   "property": "C12",
   "status": "proved",
   "theorems": [
    "Tophat.C12_prefix",
    "Tophat.C12_determined",
    "Tophat.C12_of_message"
   ],
   "note": "For every fragmentation, every history of non-empty reads and every content of the buffer pool."
  },
  {
   "property": "C13",
   "status": "partial",
   "theorems": [
    "Tophat.C13_truncates",
    "Tophat.C13_long_line",
    "Tophat.C13_payload_partial",
    "Tophat.C13_one_chunk_partial",
    "Tophat.C13_complete_partial",
    "Tophat.C13_roomy_partial",
    "Tophat.C13_small_partial"
   ],
   "note": "False of the code (C13_truncates). The partial theorems give the whole payload whenever no point at which the decoder needs more input coincides with the end of its window; in particular for all messages of at most 4096 bytes and all one-chunk messages."
  },
  {
   "property": "C14",
   "status": "partial",
   "theorems": [
    "Tophat.C14_truncation_unreported",
    "Tophat.C14_refuted",
    "Tophat.C14_refuted_into_bytes",
    "Tophat.C14_refuted_client",
    "Tophat.C14_no_trailers_partial"
   ],
   "note": "False of the code (C14_truncation_unreported). What holds: trailers are never delivered for a truncated body."
  },
  {
   "property": "C15",
   "status": "partial",
   "theorems": [
    "Tophat.C15_nothing_beyond",
    "Tophat.C15_error_partial",
    "Tophat.C15_small_partial",
    "Tophat.C15_into_bytes_partial",
    "Tophat.C15_client_partial",
    "Tophat.C15_refuted",
    "Tophat.demo_malformed"
   ],
   "note": "Nothing beyond the malformed point is delivered, and no trailers: all streams. That the read ends with an error: whenever the framing in front of the malformed place and the malformed bytes take at most 4096 bytes (chunks of 4096 bytes and more do not count), whatever follows. False beyond (C15_refuted)."
  },
  {
   "property": "C16",
   "status": "proved",
   "theorems": [
    "Tophat.C16_trailers",
    "Tophat.C16_determined",
    "Tophat.C13_complete_partial"
   ],
   "note": "Delivery itself (liveness, not claimed here) is C13_complete_partial."
  },
  {
   "property": "C17",
   "status": "proved",
   "theorems": [
    "Tophat.C17_returns",
    "Tophat.C17_empty_buffer_spins"
   ],
   "note": "For every fragmentation and history of non-empty reads; C17_empty_buffer_spins shows that the restriction is needed."
  },
  {
   "property": "C18",
   "status": "proved",
   "theorems": [
    "Tophat.C18_eof_final"
   ],
   "note": "For every history of non-empty reads."
  },
  {
   "property": "C19",
   "status": "partial",
   "theorems": [
    "Tophat.C19_roomy_partial",
    "Tophat.C19_roundtrip_partial",
    "Tophat.C19_lossy"
   ],
   "note": "False beyond the decoder's 4096-byte window (C19_lossy)."
  },
  {
   "property": "C20",
   "status": "proved",
   "theorems": [
    "Tophat.C20_head_alone"
   ],
   "note": "Two runs with different transports, endpoints and options; Reliable and NoTimeout say that the transport takes what is written and no timer fires before the head is there."
  },
  {
   "property": "C21",
   "status": "proved",
   "theorems": [
    "Tophat.C21_not_called",
    "Tophat.C21_answered",
    "Tophat.C21_connection"
   ],
   "note": "C21_connection holds for whole connections without any hypothesis on the transport."
  },
  {
   "property": "C22",
   "status": "proved",
   "theorems": [
    "Tophat.C22_connection",
    "Tophat.C22_not_called",
    "Tophat.C22_answered",
    "Tophat.C22_malformed"
   ],
   "note": "C22_connection holds for whole connections without any hypothesis on the transport."
  },
  {
   "property": "C23",
   "status": "proved",
   "theorems": [
    "Tophat.C23_not_called",
    "Tophat.C23_gives_up"
   ],
   "note": "As C21."
  },
  {
   "property": "C24",
   "status": "proved",
   "theorems": [
    "Tophat.C24_not_called",
    "Tophat.C24_answered"
   ],
   "note": "As C21."
  },
  {
   "property": "C25",
   "status": "proved",
   "theorems": [
    "Tophat.C25_given",
    "Tophat.C25_served",
    "Tophat.C25_lengths"
   ],
   "note": "C25_lengths says which lengths the fields declare; the others that the server uses them."
  },
  {
   "property": "C26",
   "status": "proved",
   "theorems": [
    "Tophat.C26_prefix",
    "Tophat.C26_error",
    "Tophat.C26_complete"
   ],
   "note": "A body cut short by the peer's close ends without an error (second clause of C26_complete)."
  },
  {
   "property": "C27",
   "status": "proved",
   "theorems": [
    "Tophat.C27_interim",
    "Tophat.C27_no_interim"
   ],
   "note": "An interim response is also sent for a request that is then refused for want of a Host."
  },
  {
   "property": "C28",
   "status": "proved",
   "theorems": [
    "Tophat.C28_conversation",
    "Tophat.C28_written",
    "Tophat.C28_one_call"
   ],
   "note": "C28_conversation is for connections whose reads do not fail; C28_one_call is for all."
  },
  {
   "property": "C29",
   "status": "proved",
   "theorems": [
    "Tophat.C29_ok",
    "Tophat.C29_err",
    "Tophat.C29_closes"
   ],
   "note": "For whole connections."
  },
  {
   "property": "C30",
   "status": "partial",
   "theorems": [
    "Tophat.C30_refuted",
    "Tophat.C30_refuted_reads_again",
    "Tophat.C30_refuted_behind",
    "Tophat.C30_refuted_once",
    "Tophat.C30_keep_alive_partial",
    "Tophat.C30_into_bytes_partial",
    "Tophat.C30_into_bytes_run_partial"
   ],
   "note": "False of the code for pipelined requests (C30_refuted_behind: whatever lies behind a request in its packet makes no difference, for every endpoint), and for an endpoint that reads a chunked body again after its end; proved for requests (bodies of declared length, or chunked with a framing of at most 4096 bytes) that reach the server in packets of their own and endpoints that read the body, in particular those that await into_bytes."
  },
  {
   "property": "C31",
   "status": "partial",
   "theorems": [
    "Tophat.C31_refuted",
    "Tophat.C31_body_read_partial",
    "Tophat.C31_chunked_partial",
    "Tophat.C31_same_packet_partial"
   ],
   "note": "False of the code if the endpoint does not read the body; proved for bodies of declared length, as far as they are read, or (read or not) if they come in one packet with their head, and for chunked bodies (framing of at most 4096 bytes) read to their end."
  },
  {
   "property": "C32",
   "status": "partial",
   "theorems": [
    "Tophat.C32_refuted",
    "Tophat.C32_ends_partial"
   ],
   "note": "False of the code if reads go on failing; proved for finitely many failures."
  },
  {
   "property": "C33",
   "status": "proved",
   "theorems": [
    "Tophat.C33_no_timeout",
    "Tophat.C33_complete_head",
    "Tophat.C33_fires"
   ],
   "note": "The timer is an arbitrary oracle."
  },
  {
   "property": "C34",
   "status": "proved",
   "theorems": [
    "Tophat.C34_response",
    "Tophat.C34_constructors",
    "Tophat.C34_code",
    "Tophat.C34_ext"
   ],
   "note": "For every Glitch and every constructor."
  },
  {
   "property": "C35",
   "status": "proved",
   "theorems": [
    "Tophat.C35_no_leak"
   ],
   "note": "For whole connections: two endpoints that differ only in the texts of errors give identical observations."
  },
  {
   "property": "C36",
   "status": "proved",
   "theorems": [
    "Tophat.C34_response",
    "Tophat.C36_body",
    "Tophat.C36_content_type"
   ],
   "note": "For every Glitch and every chain of constructors."
  },
  {
   "property": "C37",
   "status": "proved",
   "theorems": [
    "Tophat.C37_added",
    "Tophat.C37_since_insert",
    "Tophat.C37_wire"
   ],
   "note": "For every sequence of header operations."
  },
  {
   "property": "C38",
   "status": "proved",
   "theorems": [
    "Tophat.C38_status",
    "Tophat.C38_status_kept",
    "Tophat.C38_body",
    "Tophat.C38_body_kept",
    "Tophat.C38_panic",
    "Tophat.C38_send_code",
    "Tophat.C38_wire",
    "Tophat.C38_set_text_refuted"
   ],
   "note": "The remark of the documentation that set_text sets 200 OK is refuted by C38_set_text_refuted."
  },
  {
   "property": "C39",
   "status": "partial",
   "theorems": [
    "Tophat.C39_patterns",
    "Tophat.C39_called_partial",
    "Tophat.C39_found_partial",
    "Tophat.C39_not_found_partial",
    "Tophat.C39_registered",
    "Tophat.C39_wire_partial",
    "Tophat.C39_refuted_pattern",
    "Tophat.C39_refuted_method"
   ],
   "note": "Relative to the laws of PathTree. Proved for patterns that start with a slash and methods without asterisk; false of the code otherwise (two refutations)."
  },
  {
   "property": "C40",
   "status": "proved",
   "theorems": [
    "Tophat.C40_params",
    "Tophat.C40_data",
    "Tophat.C40_no_data",
    "Tophat.C40_nested",
    "Tophat.C40_unrouted"
   ],
   "note": "Relative to the laws of PathTree, as C39."
  },
  {
   "property": "C41",
   "status": "proved",
   "theorems": [
    "Tophat.C41_refused",
    "Tophat.C41_wire"
   ],
   "note": "For every configuration and request."
  },
  {
   "property": "C42",
   "status": "proved",
   "theorems": [
    "Tophat.C42_simple",
    "Tophat.C42_guard"
   ],
   "note": "As C41."
  },
  {
   "property": "C43",
   "status": "proved",
   "theorems": [
    "Tophat.C43_granted",
    "Tophat.C43_refused",
    "Tophat.C43_wire_granted",
    "Tophat.C43_wire_refused"
   ],
   "note": "As C41."
  },
  {
   "property": "C44",
   "status": "proved",
   "theorems": [
    "Tophat.C44_unchanged",
    "Tophat.C44_guard"
   ],
   "note": "As C41."
  },
  {
   "property": "C45",
   "status": "proved",
   "theorems": [
    "Tophat.C45_built",
    "Tophat.C45_origins",
    "Tophat.C45_panic",
    "Tophat.C45_ok",
    "Tophat.C45_order",
    "Tophat.C45_str_origin"
   ],
   "note": "As C41."
  },
  {
   "property": "C46",
   "status": "partial",
   "theorems": [
    "Tophat.C46_authorized_partial",
    "Tophat.C46_returns"
   ],
   "note": "Relative to the laws of JwtLib. For requests that carry the cookie in first place; false otherwise (C49_refuted)."
  },
  {
   "property": "C47",
   "status": "proved",
   "theorems": [
    "Tophat.C47_valid",
    "Tophat.C47_only_issued"
   ],
   "note": "Relative to the laws of JwtLib; C47_only_issued assumes that presented tokens are not forged."
  },
  {
   "property": "C48",
   "status": "proved",
   "theorems": [
    "Tophat.C48_forget",
    "Tophat.C48_same_cookie"
   ],
   "note": "Relative to the laws of JwtLib."
  },
  {
   "property": "C49",
   "status": "partial",
   "theorems": [
    "Tophat.C49_refuted",
    "Tophat.C49_refuted_malformed",
    "Tophat.C49_first_partial"
   ],
   "note": "False of the code; proved for cookies in first place."
  },
  {
   "property": "C50",
   "status": "proved",
   "theorems": [
    "Tophat.C50_written",
    "Tophat.C50_returns",
    "Tophat.C50_connect"
   ],
   "note": "For every request, body reader and transport."
  },
  {
   "property": "C51",
   "status": "partial",
   "theorems": [
    "Tophat.C51_refuted_twice",
    "Tophat.C51_refuted_panic",
    "Tophat.C51_refuted_body",
    "Tophat.C51_framing_partial"
   ],
   "note": "False of the code (three refutations); proved if the application sets no content-length and the reader yields the declared number of bytes."
  },
  {
   "property": "C52",
   "status": "proved",
   "theorems": [
    "Tophat.C52_round_trip"
   ],
   "note": "For requests that meet the structure Requestable."
  },
  {
   "property": "C53",
   "status": "partial",
   "theorems": [
    "Tophat.C53_refuted_chunked",
    "Tophat.C53_refuted_interim",
    "Tophat.C53_returned_partial"
   ],
   "note": "False of the code for chunked and for interim responses; proved for the others."
  },
  {
   "property": "C54",
   "status": "proved",
   "theorems": [
    "Tophat.C54_iff",
    "Tophat.C54_cases"
   ],
   "note": "For every fragmentation of the response."
  },
  {
   "property": "C55",
   "status": "proved",
   "theorems": [
    "Tophat.C55_round_trip"
   ],
   "note": "For responses that meet the structure Transmittable. C55_refuted_chunked: a response without declared length comes back as 200 without headers."
  },
  {
   "property": "C56",
   "status": "proved",
   "theorems": [
    "Tophat.C56_empty",
    "Tophat.C56_bytes",
    "Tophat.C56_text",
    "Tophat.C56_bytes_text",
    "Tophat.C56_reader",
    "Tophat.C56_reader_text"
   ],
   "note": "For declared lengths up to isize::MAX in the case of into_string (see C66)."
  },
  {
   "property": "C57",
   "status": "partial",
   "theorems": [
    "Tophat.C57_refuted_fixed",
    "Tophat.C57_refuted_fixed_text",
    "Tophat.C57_refuted_client",
    "Tophat.C57_refuted_truncated",
    "Tophat.C57_refuted_cut",
    "Tophat.C57_one_sender",
    "Tophat.C57_sound",
    "Tophat.C57_chunked_partial",
    "Tophat.C57_chunked_text_partial",
    "Tophat.C57_taken_partial",
    "Tophat.C57_taken_text_partial"
   ],
   "note": "False of the code for all bodies of declared length, on both sides, and for chunked bodies that are cut short; proved for complete chunked bodies whose framing takes at most 4096 bytes (chunks of 4096 bytes and more do not count)."
  },
  {
   "property": "C58",
   "status": "partial",
   "theorems": [
    "Tophat.C58_refuted",
    "Tophat.C58_refuted_transport",
    "Tophat.C58_one_response_partial"
   ],
   "note": "False of the code if the endpoint fails after sending or the transport fails; proved otherwise."
  },
  {
   "property": "C59",
   "status": "partial",
   "theorems": [
    "Tophat.C59_refuted",
    "Tophat.C59_own_bytes_partial"
   ],
   "note": "False of the code: a read after an error can deliver old contents of a recycled block; proved up to and including the first error, for every pool contents."
  },
  {
   "property": "C60",
   "status": "proved",
   "theorems": [
    "Tophat.C60_prefix",
    "Tophat.C60_complete",
    "Tophat.C60_small"
   ],
   "note": "C60_complete and C60_small are within the limits that C13 shows to be needed."
  },
  {
   "property": "C61",
   "status": "proved",
   "theorems": [
    "Tophat.C61_robust",
    "Tophat.C61_computing"
   ],
   "note": "For every input and every behaviour of the transport; the endpoint reads with non-empty buffers and answers with responses that can be sent (see C03, C05, C17)."
  },
  {
   "property": "C62",
   "status": "proved",
   "theorems": [
    "Tophat.C62_settings"
   ],
   "note": "For every sequence of builder calls."
  },
  {
   "property": "C63",
   "status": "partial",
   "theorems": [
    "Tophat.C63_refuted_lost",
    "Tophat.C63_fixed_partial",
    "Tophat.C63_chunked_prefix",
    "Tophat.C63_chunked_partial"
   ],
   "note": "False of the code for bodies without content-length that end with the connection; proved for bodies of declared length and for chunked bodies whose framing takes at most 4096 bytes."
  },
  {
   "property": "C64",
   "status": "partial",
   "theorems": [
    "Tophat.C64_refuted",
    "Tophat.C64_lines_partial"
   ],
   "note": "False of the code: a line without end is collected without limit. Proved for the complete lines."
  },
  {
   "property": "C65",
   "status": "partial",
   "theorems": [
    "Tophat.C65_refuted_expect",
    "Tophat.C65_exchange_partial",
    "Tophat.C65_streamed_partial"
   ],
   "note": "False of the code for requests that expect an interim response; proved for the others, with responses of declared length, and with streamed responses: the client reads a prefix of the body, and all of it if the framing of the chunks takes at most 4096 bytes (see C13)."
  },
  {
   "property": "C66",
   "status": "partial",
   "theorems": [
    "Tophat.C66_refuted",
    "Tophat.C66_no_panic_partial",
    "Tophat.C66_client_no_panic_partial"
   ],
   "note": "False of the code for into_string with a declared length above isize::MAX; proved for into_bytes always, and for into_string up to that length."
  },
  {
   "property": "C67",
   "status": "proved",
   "theorems": [
    "Tophat.C67_exchange"
   ],
   "note": "For requests that meet the structure Requestable and do not say expect: 100-continue."
  },
  {
   "property": "C68",
   "status": "proved",
   "theorems": [
    "Tophat.C68_streamed",
    "Tophat.C68_fixed"
   ],
   "note": "On a transport that reports no error. Written means accepted by poll_write; io::copy flushes only at the end."
  },
  {
   "property": "C69",
   "status": "proved",
   "theorems": [
    "Tophat.C69_head",
    "Tophat.C69_complete",
    "Tophat.C69_prompt"
   ],
   "note": "C69_complete and C69_prompt speak of the bytes accepted by the transport. The stream adapter of futures-util that set_sse uses is part of the model."
  },
  {
   "property": "C70",
   "status": "proved",
   "theorems": [
    "Tophat.C70_called",
    "Tophat.C70_fixed",
    "Tophat.C70_chunked",
    "Tophat.C70_in_time",
    "Tophat.C70_client",
    "Tophat.C70_client_fixed",
    "Tophat.C70_client_chunked"
   ],
   "note": "For chunked bodies: Roomy (framing of at most 4096 bytes), at most 16 trailer fields. C70_reads_again shows why reading again after the end is excluded."
  },
  {
   "property": "C71",
   "status": "partial",
   "theorems": [
    "Tophat.C71_readable",
    "Tophat.C71_unambiguous",
    "Tophat.C71_answer",
    "Tophat.C71_stream_partial",
    "Tophat.C71_refuted_head",
    "Tophat.C71_refuted_no_content"
   ],
   "note": "False of the code for a response with a body to HEAD, or with status 204 (likewise 304, 1xx, and 2xx to CONNECT): the body is sent, and the peer would read it as the next response. Proved for endpoints that do not do that (Legible: also version 1.1, a final status, headers that the http crate can represent, bodies that do not fail, and no failure after the response was sent, see C58), on transports that take what is written."
  },
  {
   "property": "C72",
   "status": "partial",
   "theorems": [
    "Tophat.C72_server_partial",
    "Tophat.C72_client_partial",
    "Tophat.C72_refuted"
   ],
   "note": "False of the code when a body is read again after a read of it has failed: then the decoder reads from a block of the shared pool that another connection has filled (C72_refuted, C59_refuted). Proved, as an equality of two runs whose pools differ arbitrarily in contents, for endpoints and clients that do not read on after an error. The sizes that the allocator gives when a block grows are taken to be the same in both runs."
  },
  {
   "property": "C73",
   "status": "proved",
   "theorems": [
    "Tophat.C73_request_body",
    "Tophat.C73_request_body_ready",
    "Tophat.C73_response_body",
    "Tophat.C73_decode",
    "Tophat.C73_response",
    "Tophat.C73_request",
    "Tophat.C73_sse"
   ],
   "note": "The sources are arbitrary readers that note whether their last answer was Pending. io::copy and the timer, which are not tophat code, are not part of it; that the channel of the trailers is never waited for is part of the model (see DESIGN.md)."
  },
  {
   "property": "C74",
   "status": "proved",
   "theorems": [
    "Tophat.C74_bound",
    "Tophat.C74_amortised",
    "Tophat.C74_framing",
    "Tophat.C74_constant"
   ],
   "note": "Memory is the length of the decoder's block; what the allocator reserves beyond it, the 8192 bytes of the BufReader above the decoder, and the block that is taken from the pool for the duration of a read are not counted."
  },
  {
   "property": "C75",
   "status": "partial",
   "theorems": [
    "Tophat.C75_sent_partial",
    "Tophat.C75_client_partial",
    "Tophat.C75_server_partial",
    "Tophat.C75_waiting_partial",
    "Tophat.C75_decode_never_flushes",
    "Tophat.C75_sending_never_flushes",
    "Tophat.C75_refuted_interim",
    "Tophat.C75_refuted_stream"
   ],
   "note": "True of send, of the client, and of the server between requests and at its end. False of the interim response, which is written but not flushed before the endpoint is called (C75_refuted_interim), and of streamed bodies: while the body is silent nothing has been flushed, not even the head (C75_refuted_stream)."
  },
  {
   "property": "C76",
   "status": "partial",
   "theorems": [
    "Tophat.C76_nothing_else",
    "Tophat.C76_whole_partial",
    "Tophat.C76_ends_partial",
    "Tophat.C76_spins",
    "Tophat.C76_refuted_spin",
    "Tophat.C76_refuted_cut"
   ],
   "note": "Nothing but the body is ever passed on (C76_nothing_else, all requests and transports). Bodies that arrive completely, with chunk framing that fits into 4096 bytes, are passed on as they are, and that comes to an end. False of bodies that are cut off: with a declared length the server spins forever (C76_refuted_spin), and a chunked one is answered as if it were complete (C76_refuted_cut)."
  },
  {
   "property": "C77",
   "status": "partial",
   "theorems": [
    "Tophat.C77_agree",
    "Tophat.C77_whole_partial",
    "Tophat.C77_exact",
    "Tophat.C77_swallows",
    "Tophat.C77_refuted_lengths",
    "Tophat.C77_refuted_identity",
    "Tophat.C77_refuted_plus",
    "Tophat.C77_refuted_lf"
   ],
   "note": "Wherever RFC 7230 prescribes a framing, and the head ends with CRLF CRLF, the server uses it and the endpoint gets nothing but that body (C77_agree, all requests); all of it, if its length is given or the chunk framing takes at most 4096 bytes (C77_whole_partial; C13 for the rest). False of requests with different lengths, with a plus sign in a length, and with the last coding identity, which are served: C77_exact shows that these are all. False of heads that end with a bare LF, which swallow what follows them up to the next CRLF CRLF (C77_swallows, C77_refuted_lf)."
  },
  {
   "property": "C78",
   "status": "proved",
   "theorems": [
    "Tophat.C78_connect",
    "Tophat.C78_cause",
    "Tophat.C78_body",
    "Tophat.C78_verbose",
    "Tophat.C78_latent"
   ],
   "note": "C78_connect: the phase is told from the text alone (phaseOf), for all texts of underlying errors. The texts of the errors of std and of libraries are parameters. C78_latent is a remark: two constructors, one of which is never reached, print the same."
  },
  {
   "property": "C79",
   "status": "partial",
   "theorems": [
    "Tophat.C79_nothing_else",
    "Tophat.C79_failed",
    "Tophat.C79_same_partial",
    "Tophat.C79_ends_partial",
    "Tophat.C79_spins",
    "Tophat.C79_refuted_chunked",
    "Tophat.C79_refuted_close",
    "Tophat.C79_refuted_spin",
    "Tophat.C79_refuted_cut"
   ],
   "note": "The property is false of the code: every chunked response is passed on with status 200 and without its fields (C79_refuted_chunked, for all of them), a response that ends with the connection loses its body (C79_refuted_close), a cut off response makes the endpoint spin (C79_spins, C79_refuted_spin) or is passed on as complete (C79_refuted_cut). Proved: responses that announce their length (C79_same_partial), and that nothing else is ever written (C79_nothing_else, C79_failed)."
  },
  {
   "property": "C80",
   "status": "partial",
   "theorems": [
    "Tophat.C80_server_partial",
    "Tophat.C80_client_partial",
    "Tophat.C80_refuted_expect",
    "Tophat.C80_refuted_client",
    "Tophat.lower_fold"
   ],
   "note": "True of field names on both sides, and of the value of Transfer-Encoding in requests. False of Expect, whose value must be lower case (C80_refuted_expect), and of Transfer-Encoding in responses: in any other case than lower case the body is lost (C80_refuted_client, for all such responses)."
  },
  {
   "property": "C81",
   "status": "partial",
   "theorems": [
    "Tophat.C81_kept_partial",
    "Tophat.C81_request_partial",
    "Tophat.C81_refuted",
    "Tophat.C81_refuted_waiting"
   ],
   "note": "False of the code: there is no limit, neither for complete heads (C81_refuted, for every size) nor for unfinished ones (C81_refuted_waiting). What holds: only what was received since the last request is kept, nothing is collected behind a blank line, and a request has at most 16 fields and is not larger than its head."
  },
  {
   "property": "C82",
   "status": "proved",
   "theorems": [
    "Tophat.C82_found",
    "Tophat.C82_not_found"
   ],
   "note": "Relative to the laws of PathTree, as C39; under the conditions of C65_exchange_partial on request and response."
  },
  {
   "property": "C83",
   "status": "proved",
   "theorems": [
    "Tophat.C83_session",
    "Tophat.C83_logout"
   ],
   "note": "Relative to the laws of JwtLib, as C46; under the conditions of C65_exchange_partial on requests and responses (the response with the cookie is Transmittable: its head takes less than 8 KiB)."
  },
  {
   "property": "C84",
   "status": "partial",
   "theorems": [
    "Tophat.C84_events_partial",
    "Tophat.C84_client_partial",
    "Tophat.C84_upload_partial",
    "Tophat.C84_upload_declared",
    "Tophat.C84_refuted"
   ],
   "note": "False of the code once the decoder has lost bytes (see C13): C84_refuted, the client is told that a stream that goes on has ended. Proved while the framing of the chunks takes at most 4096 bytes (11 less, for the claim that no end is reported)."
  },
  {
   "property": "C85",
   "status": "partial",
   "theorems": [
    "Tophat.C85_idle_partial",
    "Tophat.C85_refuted",
    "Tophat.C85_refuted_writing"
   ],
   "note": "False of the code: C85_refuted (for every length N of a silence in a body that is being read, whatever the timer says, the endpoint is kept waiting) and C85_refuted_writing. Proved for silences while the server waits for a head, whatever has happened before."
  },
  {
   "property": "C86",
   "status": "partial",
   "theorems": [
    "Tophat.C86_no_deadlock_partial",
    "Tophat.C86_received_partial",
    "Tophat.C86_computing",
    "Tophat.C86_stuck",
    "Tophat.C86_refuted"
   ],
   "note": "False of the code for endpoints that answer before they have read the body: C86_refuted gives, for every pair of capacities, a request and an endpoint that block each other under every schedule (C86_stuck says which do). Proved for endpoints that read the whole body first (C86_computing: those that use into_bytes). Both tasks are modelled with one poll of the code per step; what happens when one of the two is not polled again (lost wakeups) is the subject of C73."
  },
  {
   "property": "C87",
   "status": "partial",
   "theorems": [
    "Tophat.C87_same_packet_partial",
    "Tophat.C87_alone",
    "Tophat.C87_refuted",
    "Tophat.C87_refuted_task"
   ],
   "note": "False of the code when a part of the body comes in a later packet. Proved, for every schedule, for bodies of declared length that come in one packet with their head; C87_alone ties the server of this model (which is polled step by step) to accept."
  },
  {
   "property": "C88",
   "status": "partial",
   "theorems": [
    "Tophat.C88_refuted",
    "Tophat.C88_refuted_client",
    "Tophat.C88_length_partial",
    "Tophat.C88_length_client_partial"
   ],
   "note": "False of the code for every point at which the peer closes the connection. What holds: into_bytes returns the first so many bytes of what has come, so its length tells; errors of the connection are reported."
  },
  {
   "property": "C89",
   "status": "partial",
   "theorems": [
    "Tophat.C89_refuted",
    "Tophat.C89_refuted_declared",
    "Tophat.C89_on_the_wire",
    "Tophat.C89_streamed_partial"
   ],
   "note": "False of the code for responses of declared length. Proved for streamed responses: what is on the wire is either a whole error response or a malformed chunked body, for bodies of every size; and the into_bytes of a tophat client fails if the framing of the chunks takes less than 4096 bytes (see C15). The server's transport takes what is written (C58_refuted_transport otherwise)."
  },
  {
   "property": "C90",
   "status": "partial",
   "theorems": [
    "Tophat.C90_refuted",
    "Tophat.C90_refuted_stray",
    "Tophat.C90_refuted_declared",
    "Tophat.C90_on_the_wire",
    "Tophat.C90_streamed_partial"
   ],
   "note": "False of the code for responses of declared length (C90_refuted_declared: for all of them, whenever the head is sent), and when all is sent but not flushed (C90_refuted_stray). Proved for every transport that does not fail: what is on the wire is the whole response and nothing else, or a beginning of it and a whole error response. Proved for streamed responses, on a transport that takes everything at once: complete, or recognisably broken, or replaced by the error response, or complete with a second response behind it; the into_bytes of a tophat client fails on the broken ones if the framing of the chunks takes less than 4096 bytes."
  },
  {
   "property": "C91",
   "status": "proved",
   "theorems": [
    "Tophat.C91_endpoint",
    "Tophat.C91_body",
    "Tophat.C91_refused"
   ],
   "note": "Under the structures Requestable and Glitch.Transmittable, which say what the quantifier says."
  },
  {
   "property": "C92",
   "status": "partial",
   "theorems": [
    "Tophat.C92_refuted_many",
    "Tophat.C92_refuted_exchange",
    "Tophat.C92_refuted_large",
    "Tophat.C92_refuted_blanks",
    "Tophat.C92_request_partial",
    "Tophat.C92_response_partial"
   ],
   "note": "False of the code: for every request of more than 16 fields (C92_refuted_many: the endpoint is not called; C92_refuted_exchange: connect returns 400), for every response with a head of 8 KiB or more or more than 128 fields (C92_refuted_large), and for values that begin with blanks (C92_refuted_blanks). Proved within these limits, up to the blanks at the beginning of values; responses of declared length only (for the others see C53)."
  },
  {
   "property": "C93",
   "status": "partial",
   "theorems": [
    "Tophat.C93_refused",
    "Tophat.C93_preflight_refused",
    "Tophat.C93_preflight",
    "Tophat.C93_allowed_partial",
    "Tophat.C93_refuted_error"
   ],
   "note": "False of the code: if the application returns an error, the response that the client gets says nothing about the origin (C93_refuted_error). Everything else is proved; C93_allowed_partial is for applications that send a response of declared length."
  },
  {
   "property": "C94",
   "status": "proved",
   "theorems": [
    "Tophat.C94_text",
    "Tophat.C94_not_text"
   ],
   "note": "Requests as in C52: at most 16 fields, no value that begins with a blank, no Expect."
  },
  {
   "property": "C95",
   "status": "proved",
   "theorems": [
    "Tophat.C95_other_fields"
   ],
   "note": "The two connections take what the server writes (Reliable), and the reading timeout does not fire before the head is there."
  },
  {
   "property": "C96",
   "status": "partial",
   "theorems": [
    "Tophat.C96_refuted",
    "Tophat.C96_refuted_next"
   ],
   "note": "False of the code for every request that is served: C96_refuted (accept does not return after the step), C96_refuted_next (request and response both say close, and the next request of the connection is served). When accept does return is C29."
  },
  {
   "property": "C97",
   "status": "proved",
   "theorems": [
    "Tophat.C97_session",
    "Tophat.C97_computing",
    "Tophat.C97_complete",
    "Tophat.C97_served"
   ],
   "note": "Each request and each response comes in packets of its own (Brings), as they do when the client waits for each response before it sends the next request; requests and responses as in C65_exchange_partial; C97_complete and C97_served assume of no call that it returns."
  },
  {
   "property": "C98",
   "status": "partial",
   "theorems": [
    "Tophat.C98_session_partial",
    "Tophat.C98_complete_partial",
    "Tophat.C98_refuted"
   ],
   "note": "Missing: responses with more framing than the client's chunked decoder takes (C98_refuted); status and headers of streamed responses, which the client loses (C53_refuted_chunked). Otherwise as C97."
  },
  {
   "property": "C99",
   "status": "proved",
   "theorems": [
    "Tophat.C99_greeted",
    "Tophat.C99_not_found"
   ],
   "note": "Requests as in C52. Relative to the laws of PathTree, which leave open whether GET / is routed (with an empty name) or not."
  },
  {
   "property": "C100",
   "status": "proved",
   "theorems": [
    "Tophat.C100_login",
    "Tophat.C100_stranger",
    "Tophat.C100_logout",
    "Tophat.C100_not_found"
   ],
   "note": "Requests as in C52; the cookie and the date together are at most 7600 bytes, so that the head fits. Relative to the laws of PathTree and of the JWT library. GET /login/ (an empty name) is left open by the former."
  },
  {
   "property": "C101",
   "status": "proved",
   "theorems": [
    "Tophat.C101_error",
    "Tophat.C101_database_error",
    "Tophat.C101_context",
    "Tophat.C101_missing",
    "Tophat.C101_not_found"
   ],
   "note": "Requests as in C52; the texts are UTF-8. Relative to the laws of PathTree."
  }
 ]
}
