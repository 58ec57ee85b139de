#!/usr/bin/env python3
"""Writes MANIFEST.json. Theorem names are given without the namespace `Tophat.`."""
import json, os
M = [
 ("C01", "proved", ["C01_sent", "C01_chunked_framing", "C01_chunked_completes", "C01_tiny_buffer_refuted"],
  "C01_sent: for send, on every transport. C01_chunked_framing: for the sender polled with any buffers; that the end is not reported early needs buffers of at least 7 bytes (send uses 8192), with smaller ones it can be (refutation)."),
 ("C02", "proved", ["C02_no_premature_end"], "For every body reader, header map and sequence of caller's buffers; HexLenOk is what is assumed of the floating point digit count."),
 ("C03", "partial", ["C03_no_panic_partial", "C03_panic_only_if", "C03_refuted", "C03_panics"],
  "False of the code (C03_refuted, with the 8192-byte buffer of io::copy); the partial theorem gives the exact condition."),
 ("C04", "proved", ["C04_fixed_body"], "For every reader and sequence of buffers; the bound says that buffer length plus declared length fit into usize (otherwise the addition at encode.rs:159 overflows)."),
 ("C05", "partial", ["C05_completes_partial", "C05_short_reader_hangs", "C05_refuted", "C05_overflow_refuted"],
  "False of the code for readers that end early; proved for readers that yield the declared length or fail."),
 ("C06", "proved", ["C06_one_framing_header"], "For every header map the http crate can build (Valid); the clock's text has no carriage return."),
 ("C07", "proved", ["C07_date"], "As C06."),
 ("C08", "proved", ["C08_content_type"], "As C06."),
 ("C09", "proved", ["C09_head_exact", "C09_status_line", "C09_reason_phrase", "C09_reason_distinct", "C09_head_delivered"], "As C06; C09_reason_phrase compares with the table of RFC 7231 (the http crate spells that of 203 differently), C09_reason_distinct says that no two statuses share a phrase."),
 ("C10", "proved", ["C10_bytes_written", "C10_send_returns_partial"], "Liveness (that send returns) is not claimed here; C10_send_returns_partial gives it outside C03 and C05."),
 ("C11", "proved", ["C11_prefix", "C11_never_whole"], "For every transport; 8192 + length fits into usize."),
 ("C12", "proved", ["C12_prefix", "C12_determined", "C12_of_message"], "For every fragmentation, every history of non-empty reads and every content of the buffer pool."),
 ("C13", "partial", ["C13_truncates", "C13_long_line", "C13_payload_partial", "C13_one_chunk_partial", "C13_complete_partial", "C13_roomy_partial", "C13_small_partial"],
  "False of the code (C13_truncates). The partial theorems give the whole payload whenever no point at which the decoder needs more input coincides with the end of its window; in particular for all messages of at most 4096 bytes and all one-chunk messages."),
 ("C14", "partial", ["C14_truncation_unreported", "C14_refuted", "C14_refuted_into_bytes", "C14_refuted_client", "C14_no_trailers_partial"],
  "False of the code (C14_truncation_unreported). What holds: trailers are never delivered for a truncated body."),
 ("C15", "partial", ["C15_nothing_beyond", "C15_error_partial", "C15_small_partial", "C15_into_bytes_partial", "C15_client_partial", "C15_refuted", "demo_malformed"],
  "Nothing beyond the malformed point is delivered, and no trailers: all streams. That the read ends with an error: whenever the framing in front of the malformed place and the malformed bytes take at most 4096 bytes (chunks of 4096 bytes and more do not count), whatever follows. False beyond (C15_refuted)."),
 ("C16", "proved", ["C16_trailers", "C16_determined", "C13_complete_partial"], "Delivery itself (liveness, not claimed here) is C13_complete_partial."),
 ("C17", "proved", ["C17_returns", "C17_empty_buffer_spins"], "For every fragmentation and history of non-empty reads; C17_empty_buffer_spins shows that the restriction is needed."),
 ("C18", "proved", ["C18_eof_final"], "For every history of non-empty reads."),
 ("C19", "partial", ["C19_roomy_partial", "C19_roundtrip_partial", "C19_lossy"], "False beyond the decoder's 4096-byte window (C19_lossy)."),
 ("C20", "proved", ["C20_head_alone"], "Two runs with different transports, endpoints and options; Reliable and NoTimeout say that the transport takes what is written and no timer fires before the head is there."),
 ("C21", "proved", ["C21_not_called", "C21_answered", "C21_connection"], "C21_connection holds for whole connections without any hypothesis on the transport."),
 ("C22", "proved", ["C22_connection", "C22_not_called", "C22_answered", "C22_malformed"], "C22_connection holds for whole connections without any hypothesis on the transport."),
 ("C23", "proved", ["C23_not_called", "C23_gives_up"], "As C21."),
 ("C24", "proved", ["C24_not_called", "C24_answered"], "As C21."),
 ("C25", "proved", ["C25_given", "C25_served", "C25_lengths"], "C25_lengths says which lengths the fields declare; the others that the server uses them."),
 ("C26", "proved", ["C26_prefix", "C26_error", "C26_complete"], "A body cut short by the peer's close ends without an error (second clause of C26_complete)."),
 ("C27", "proved", ["C27_interim", "C27_no_interim"], "An interim response is also sent for a request that is then refused for want of a Host."),
 ("C28", "proved", ["C28_conversation", "C28_written", "C28_one_call"], "C28_conversation is for connections whose reads do not fail; C28_one_call is for all."),
 ("C29", "proved", ["C29_ok", "C29_err", "C29_closes"], "For whole connections."),
 ("C30", "partial", ["C30_refuted", "C30_refuted_reads_again", "C30_refuted_behind", "C30_refuted_once", "C30_keep_alive_partial", "C30_into_bytes_partial", "C30_into_bytes_run_partial"], "False of the code for pipelined requests (C30_refuted_behind: whatever lies behind a request in its packet makes no difference, for every endpoint), and for an endpoint that reads a chunked body again after its end; proved for requests (bodies of declared length, or chunked with a framing of at most 4096 bytes) that reach the server in packets of their own and endpoints that read the body, in particular those that await into_bytes."),
 ("C31", "partial", ["C31_refuted", "C31_body_read_partial", "C31_chunked_partial", "C31_same_packet_partial"], "False of the code if the endpoint does not read the body; proved for bodies of declared length, as far as they are read, or (read or not) if they come in one packet with their head, and for chunked bodies (framing of at most 4096 bytes) read to their end."),
 ("C32", "partial", ["C32_refuted", "C32_ends_partial"], "False of the code if reads go on failing; proved for finitely many failures."),
 ("C33", "proved", ["C33_no_timeout", "C33_complete_head", "C33_fires"], "The timer is an arbitrary oracle."),
 ("C34", "proved", ["C34_response", "C34_constructors", "C34_code", "C34_ext"], "For every Glitch and every constructor."),
 ("C35", "proved", ["C35_no_leak"], "For whole connections: two endpoints that differ only in the texts of errors give identical observations."),
 ("C36", "proved", ["C34_response", "C36_body", "C36_content_type"], "For every Glitch and every chain of constructors."),
 ("C37", "proved", ["C37_added", "C37_since_insert", "C37_wire"], "For every sequence of header operations."),
 ("C38", "proved", ["C38_status", "C38_status_kept", "C38_body", "C38_body_kept", "C38_panic", "C38_send_code", "C38_wire", "C38_set_text_refuted"], "The remark of the documentation that set_text sets 200 OK is refuted by C38_set_text_refuted."),
 ("C39", "partial", ["C39_patterns", "C39_called_partial", "C39_found_partial", "C39_not_found_partial", "C39_registered", "C39_wire_partial", "C39_refuted_pattern", "C39_refuted_method"], "Relative to the laws of PathTree. Proved for patterns that start with a slash and methods without asterisk; false of the code otherwise (two refutations)."),
 ("C40", "proved", ["C40_params", "C40_data", "C40_no_data", "C40_nested", "C40_unrouted"], "Relative to the laws of PathTree, as C39."),
 ("C41", "proved", ["C41_refused", "C41_wire"], "For every configuration and request."),
 ("C42", "proved", ["C42_simple", "C42_guard"], "As C41."),
 ("C43", "proved", ["C43_granted", "C43_refused", "C43_wire_granted", "C43_wire_refused"], "As C41."),
 ("C44", "proved", ["C44_unchanged", "C44_guard"], "As C41."),
 ("C45", "proved", ["C45_built", "C45_origins", "C45_panic", "C45_ok", "C45_order", "C45_str_origin"], "As C41."),
 ("C46", "partial", ["C46_authorized_partial", "C46_returns"], "Relative to the laws of JwtLib. For requests that carry the cookie in first place; false otherwise (C49_refuted)."),
 ("C47", "proved", ["C47_valid", "C47_only_issued"], "Relative to the laws of JwtLib; C47_only_issued assumes that presented tokens are not forged."),
 ("C48", "proved", ["C48_forget", "C48_same_cookie"], "Relative to the laws of JwtLib."),
 ("C49", "partial", ["C49_refuted", "C49_refuted_malformed", "C49_first_partial"], "False of the code; proved for cookies in first place."),
 ("C50", "proved", ["C50_written", "C50_returns", "C50_connect"], "For every request, body reader and transport."),
 ("C51", "partial", ["C51_refuted_twice", "C51_refuted_panic", "C51_refuted_body", "C51_framing_partial"], "False of the code (three refutations); proved if the application sets no content-length and the reader yields the declared number of bytes."),
 ("C52", "proved", ["C52_round_trip"], "For requests that meet the structure Requestable."),
 ("C53", "partial", ["C53_refuted_chunked", "C53_refuted_interim", "C53_returned_partial"], "False of the code for chunked and for interim responses; proved for the others."),
 ("C54", "proved", ["C54_iff", "C54_cases"], "For every fragmentation of the response."),
 ("C55", "proved", ["C55_round_trip"], "For responses that meet the structure Transmittable. C55_refuted_chunked: a response without declared length comes back as 200 without headers."),
 ("C56", "proved", ["C56_empty", "C56_bytes", "C56_text", "C56_bytes_text", "C56_reader", "C56_reader_text"], "For declared lengths up to isize::MAX in the case of into_string (see C66)."),
 ("C57", "partial", ["C57_refuted_fixed", "C57_refuted_fixed_text", "C57_refuted_client", "C57_refuted_truncated", "C57_refuted_cut", "C57_one_sender", "C57_sound", "C57_chunked_partial", "C57_chunked_text_partial", "C57_taken_partial", "C57_taken_text_partial"], "False of the code for all bodies of declared length, on both sides, and for chunked bodies that are cut short; proved for complete chunked bodies whose framing takes at most 4096 bytes (chunks of 4096 bytes and more do not count)."),
 ("C58", "partial", ["C58_refuted", "C58_refuted_transport", "C58_one_response_partial"], "False of the code if the endpoint fails after sending or the transport fails; proved otherwise."),
 ("C59", "partial", ["C59_refuted", "C59_own_bytes_partial"], "False of the code: a read after an error can deliver old contents of a recycled block; proved up to and including the first error, for every pool contents."),
 ("C60", "proved", ["C60_prefix", "C60_complete", "C60_small"], "C60_complete and C60_small are within the limits that C13 shows to be needed."),
 ("C61", "proved", ["C61_robust", "C61_computing"], "For every input and every behaviour of the transport; the endpoint reads with non-empty buffers and answers with responses that can be sent (see C03, C05, C17)."),
 ("C62", "proved", ["C62_settings"], "For every sequence of builder calls."),
 ("C63", "partial", ["C63_refuted_lost", "C63_fixed_partial", "C63_chunked_prefix", "C63_chunked_partial"], "False of the code for bodies without content-length that end with the connection; proved for bodies of declared length and for chunked bodies whose framing takes at most 4096 bytes."),
 ("C64", "partial", ["C64_refuted", "C64_lines_partial"], "False of the code: a line without end is collected without limit. Proved for the complete lines."),
 ("C65", "partial", ["C65_refuted_expect", "C65_exchange_partial", "C65_streamed_partial"], "False of the code for requests that expect an interim response; proved for the others, with responses of declared length, and with streamed responses: the client reads a prefix of the body, and all of it if the framing of the chunks takes at most 4096 bytes (see C13)."),
 ("C66", "partial", ["C66_refuted", "C66_no_panic_partial", "C66_client_no_panic_partial"], "False of the code for into_string with a declared length above isize::MAX; proved for into_bytes always, and for into_string up to that length."),
 ("C67", "proved", ["C67_exchange"], "For requests that meet the structure Requestable and do not say expect: 100-continue."),
 ("C68", "proved", ["C68_streamed", "C68_fixed"], "On a transport that reports no error. Written means accepted by poll_write; io::copy flushes only at the end."),
 ("C69", "proved", ["C69_head", "C69_complete", "C69_prompt"], "C69_complete and C69_prompt speak of the bytes accepted by the transport. The stream adapter of futures-util that set_sse uses is part of the model."),
 ("C70", "proved", ["C70_called", "C70_fixed", "C70_chunked", "C70_in_time", "C70_client", "C70_client_fixed", "C70_client_chunked"], "For chunked bodies: Roomy (framing of at most 4096 bytes), at most 16 trailer fields. C70_reads_again shows why reading again after the end is excluded."),
 ("C71", "partial", ["C71_readable", "C71_unambiguous", "C71_answer", "C71_stream_partial", "C71_refuted_head", "C71_refuted_no_content"], "False of the code for a response with a body to HEAD, or with status 204 (likewise 304, 1xx, and 2xx to CONNECT): the body is sent, and the peer would read it as the next response. Proved for endpoints that do not do that (Legible: also version 1.1, a final status, headers that the http crate can represent, bodies that do not fail, and no failure after the response was sent, see C58), on transports that take what is written."),
 ("C72", "partial", ["C72_server_partial", "C72_client_partial", "C72_refuted"], "False of the code when a body is read again after a read of it has failed: then the decoder reads from a block of the shared pool that another connection has filled (C72_refuted, C59_refuted). Proved, as an equality of two runs whose pools differ arbitrarily in contents, for endpoints and clients that do not read on after an error. The sizes that the allocator gives when a block grows are taken to be the same in both runs."),
 ("C73", "proved", ["C73_request_body", "C73_request_body_ready", "C73_response_body", "C73_decode", "C73_response", "C73_request", "C73_sse"], "The sources are arbitrary readers that note whether their last answer was Pending. io::copy and the timer, which are not tophat code, are not part of it; that the channel of the trailers is never waited for is part of the model (see DESIGN.md)."),
 ("C74", "proved", ["C74_bound", "C74_amortised", "C74_framing", "C74_constant"], "Memory is the length of the decoder's block; what the allocator reserves beyond it, the 8192 bytes of the BufReader above the decoder, and the block that is taken from the pool for the duration of a read are not counted."),
 ("C75", "partial", ["C75_sent_partial", "C75_client_partial", "C75_server_partial", "C75_waiting_partial", "C75_decode_never_flushes", "C75_sending_never_flushes", "C75_refuted_interim", "C75_refuted_stream"],
  "True of send, of the client, and of the server between requests and at its end. False of the interim response, which is written but not flushed before the endpoint is called (C75_refuted_interim), and of streamed bodies: while the body is silent nothing has been flushed, not even the head (C75_refuted_stream)."),
 ("C76", "partial", ["C76_nothing_else", "C76_whole_partial", "C76_ends_partial", "C76_spins", "C76_refuted_spin", "C76_refuted_cut"],
  "Nothing but the body is ever passed on (C76_nothing_else, all requests and transports). Bodies that arrive completely, with chunk framing that fits into 4096 bytes, are passed on as they are, and that comes to an end. False of bodies that are cut off: with a declared length the server spins forever (C76_refuted_spin), and a chunked one is answered as if it were complete (C76_refuted_cut)."),
 ("C77", "partial", ["C77_agree", "C77_whole_partial", "C77_exact", "C77_swallows", "C77_refuted_lengths", "C77_refuted_identity", "C77_refuted_plus", "C77_refuted_lf"],
  "Wherever RFC 7230 prescribes a framing, and the head ends with CRLF CRLF, the server uses it and the endpoint gets nothing but that body (C77_agree, all requests); all of it, if its length is given or the chunk framing takes at most 4096 bytes (C77_whole_partial; C13 for the rest). False of requests with different lengths, with a plus sign in a length, and with the last coding identity, which are served: C77_exact shows that these are all. False of heads that end with a bare LF, which swallow what follows them up to the next CRLF CRLF (C77_swallows, C77_refuted_lf)."),
 ("C78", "proved", ["C78_connect", "C78_cause", "C78_body", "C78_verbose", "C78_latent"],
  "C78_connect: the phase is told from the text alone (phaseOf), for all texts of underlying errors. The texts of the errors of std and of libraries are parameters. C78_latent is a remark: two constructors, one of which is never reached, print the same."),
 ("C79", "partial", ["C79_nothing_else", "C79_failed", "C79_same_partial", "C79_ends_partial", "C79_spins", "C79_refuted_chunked", "C79_refuted_close", "C79_refuted_spin", "C79_refuted_cut"],
  "The property is false of the code: every chunked response is passed on with status 200 and without its fields (C79_refuted_chunked, for all of them), a response that ends with the connection loses its body (C79_refuted_close), a cut off response makes the endpoint spin (C79_spins, C79_refuted_spin) or is passed on as complete (C79_refuted_cut). Proved: responses that announce their length (C79_same_partial), and that nothing else is ever written (C79_nothing_else, C79_failed)."),
 ("C80", "partial", ["C80_server_partial", "C80_client_partial", "C80_refuted_expect", "C80_refuted_client", "lower_fold"],
  "True of field names on both sides, and of the value of Transfer-Encoding in requests. False of Expect, whose value must be lower case (C80_refuted_expect), and of Transfer-Encoding in responses: in any other case than lower case the body is lost (C80_refuted_client, for all such responses)."),
 ("C81", "partial", ["C81_kept_partial", "C81_request_partial", "C81_refuted", "C81_refuted_waiting"],
  "False of the code: there is no limit, neither for complete heads (C81_refuted, for every size) nor for unfinished ones (C81_refuted_waiting). What holds: only what was received since the last request is kept, nothing is collected behind a blank line, and a request has at most 16 fields and is not larger than its head."),
 ("C82", "proved", ["C82_found", "C82_not_found"], "Relative to the laws of PathTree, as C39; under the conditions of C65_exchange_partial on request and response."),
 ("C83", "proved", ["C83_session", "C83_logout"], "Relative to the laws of JwtLib, as C46; under the conditions of C65_exchange_partial on requests and responses (the response with the cookie is Transmittable: its head takes less than 8 KiB)."),
 ("C84", "partial", ["C84_events_partial", "C84_client_partial", "C84_upload_partial", "C84_upload_declared", "C84_refuted"], "False of the code once the decoder has lost bytes (see C13): C84_refuted, the client is told that a stream that goes on has ended. Proved while the framing of the chunks takes at most 4096 bytes (11 less, for the claim that no end is reported)."),
 ("C85", "partial", ["C85_idle_partial", "C85_refuted", "C85_refuted_writing"], "False of the code: C85_refuted (for every length N of a silence in a body that is being read, whatever the timer says, the endpoint is kept waiting) and C85_refuted_writing. Proved for silences while the server waits for a head, whatever has happened before."),
 ("C86", "partial", ["C86_no_deadlock_partial", "C86_received_partial", "C86_computing", "C86_stuck", "C86_refuted"], "False of the code for endpoints that answer before they have read the body: C86_refuted gives, for every pair of capacities, a request and an endpoint that block each other under every schedule (C86_stuck says which do). Proved for endpoints that read the whole body first (C86_computing: those that use into_bytes). Both tasks are modelled with one poll of the code per step; what happens when one of the two is not polled again (lost wakeups) is the subject of C73."),
 ("C87", "partial", ["C87_same_packet_partial", "C87_alone", "C87_refuted", "C87_refuted_task"], "False of the code when a part of the body comes in a later packet. Proved, for every schedule, for bodies of declared length that come in one packet with their head; C87_alone ties the server of this model (which is polled step by step) to accept."),
 ("C88", "partial", ["C88_refuted", "C88_refuted_client", "C88_length_partial", "C88_length_client_partial"], "False of the code for every point at which the peer closes the connection. What holds: into_bytes returns the first so many bytes of what has come, so its length tells; errors of the connection are reported."),
 ("C89", "partial", ["C89_refuted", "C89_refuted_declared", "C89_on_the_wire", "C89_streamed_partial"], "False of the code for responses of declared length. Proved for streamed responses: what is on the wire is either a whole error response or a malformed chunked body, for bodies of every size; and the into_bytes of a tophat client fails if the framing of the chunks takes less than 4096 bytes (see C15). The server's transport takes what is written (C58_refuted_transport otherwise)."),
 ("C90", "partial", ["C90_refuted", "C90_refuted_stray", "C90_refuted_declared", "C90_on_the_wire", "C90_streamed_partial"], "False of the code for responses of declared length (C90_refuted_declared: for all of them, whenever the head is sent), and when all is sent but not flushed (C90_refuted_stray). Proved for every transport that does not fail: what is on the wire is the whole response and nothing else, or a beginning of it and a whole error response. Proved for streamed responses, on a transport that takes everything at once: complete, or recognisably broken, or replaced by the error response, or complete with a second response behind it; the into_bytes of a tophat client fails on the broken ones if the framing of the chunks takes less than 4096 bytes."),
 ("C91", "proved", ["C91_endpoint", "C91_body", "C91_refused"], "Under the structures Requestable and Glitch.Transmittable, which say what the quantifier says."),
 ("C92", "partial", ["C92_refuted_many", "C92_refuted_exchange", "C92_refuted_large", "C92_refuted_blanks", "C92_request_partial", "C92_response_partial"], "False of the code: for every request of more than 16 fields (C92_refuted_many: the endpoint is not called; C92_refuted_exchange: connect returns 400), for every response with a head of 8 KiB or more or more than 128 fields (C92_refuted_large), and for values that begin with blanks (C92_refuted_blanks). Proved within these limits, up to the blanks at the beginning of values; responses of declared length only (for the others see C53)."),
 ("C93", "partial", ["C93_refused", "C93_preflight_refused", "C93_preflight", "C93_allowed_partial", "C93_refuted_error"], "False of the code: if the application returns an error, the response that the client gets says nothing about the origin (C93_refuted_error). Everything else is proved; C93_allowed_partial is for applications that send a response of declared length."),
 ("C94", "proved", ["C94_text", "C94_not_text"], "Requests as in C52: at most 16 fields, no value that begins with a blank, no Expect."),
 ("C95", "proved", ["C95_other_fields"], "The two connections take what the server writes (Reliable), and the reading timeout does not fire before the head is there."),
 ("C96", "partial", ["C96_refuted", "C96_refuted_next"], "False of the code for every request that is served: C96_refuted (accept does not return after the step), C96_refuted_next (request and response both say close, and the next request of the connection is served). When accept does return is C29."),
 ("C97", "proved", ["C97_session", "C97_computing", "C97_complete", "C97_served"], "Each request and each response comes in packets of its own (Brings), as they do when the client waits for each response before it sends the next request; requests and responses as in C65_exchange_partial; C97_complete and C97_served assume of no call that it returns."),
 ("C98", "partial", ["C98_session_partial", "C98_complete_partial", "C98_refuted"], "Missing: responses with more framing than the client's chunked decoder takes (C98_refuted); status and headers of streamed responses, which the client loses (C53_refuted_chunked). Otherwise as C97."),
 ("C99", "proved", ["C99_greeted", "C99_not_found"], "Requests as in C52. Relative to the laws of PathTree, which leave open whether GET / is routed (with an empty name) or not."),
 ("C100", "proved", ["C100_login", "C100_stranger", "C100_logout", "C100_not_found"], "Requests as in C52; the cookie and the date together are at most 7600 bytes, so that the head fits. Relative to the laws of PathTree and of the JWT library. GET /login/ (an empty name) is left open by the former."),
 ("C101", "proved", ["C101_error", "C101_database_error", "C101_context", "C101_missing", "C101_not_found"], "Requests as in C52; the texts are UTF-8. Relative to the laws of PathTree."),
]
here = os.path.dirname(os.path.abspath(__file__))
claims = [{"property": p, "status": s, "theorems": ["Tophat." + t for t in ts], "note": n} for p, s, ts, n in M]
with open(os.path.join(here, "..", "MANIFEST.json"), "w") as f:
    json.dump({"claims": claims}, f, indent=1)
    f.write("\n")
