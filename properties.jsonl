{"id": "C01", "title": "Chunked response framing carries exactly the body", "statement": "When a response whose Body has unknown length (Body::from_reader(r, None), set_sse) is sent, the bytes that follow the head are always a sequence of well-formed RFC 7230 chunks whose data concatenated is a prefix of what r yields; and when the sender reports end of message they are a complete chunked message ('0 CRLF CRLF' terminated) whose payload is exactly what r yields.", "quantifier": "every body reader (any fragmentation, any placement of Pending, any error), every transport and every moment of ResponseWriter::send; and for the sender itself every sequence of output buffer sizes (the end of message: of at least 7 bytes; ResponseWriter::send uses 8192)", "why_tests_cant": "The outcome depends on how the body reader fragments its data, when it returns Pending and how large each output buffer is; a test fixes one such schedule out of infinitely many.", "anchors": ["src/chunked/encoder.rs ChunkedEncoder::encode", "src/server/encode.rs Encoder::encode_chunked_body", "src/body.rs Body::from_reader"]}
{"id": "C02", "title": "No premature end-of-body marker", "statement": "A chunked response never contains a zero-size chunk before the body reader has reported end of data, and after the terminator not a single further byte is emitted.", "quantifier": "every body reader, every sequence of buffer sizes including tiny ones", "why_tests_cant": "A zero-length chunk would arise only for particular buffer remainders after the head; tests use 8 KiB buffers only.", "anchors": ["src/chunked/encoder.rs ChunkedEncoder::encode_chunks", "src/chunked/encoder.rs ChunkedEncoder::encode_chunks_eos"]}
{"id": "C03", "title": "Sending a chunked response never panics", "statement": "ResponseWriter::send with a body of unknown length does not panic and never writes outside the buffer it is given, whatever the size of the head and of the body. (False of the code: if exactly 3 or 4 bytes of buffer remain when the body ends, the final CRLF is written out of bounds.)", "quantifier": "every head length, every body reader, every buffer size", "why_tests_cant": "The failing case needs a head whose length is 8188 or 8189 modulo the 8192-byte copy buffer together with an empty streaming body.", "anchors": ["src/chunked/encoder.rs ChunkedEncoder::encode_eos", "src/server/encode.rs Encoder::encode_chunked_body"]}
{"id": "C04", "title": "Fixed-length response body is exact", "statement": "When a response whose Body has length n is sent, the bytes after the head are the first n bytes the reader yields, in order, without loss, duplication or excess, and at every moment before completion they are a prefix of that.", "quantifier": "every head, every body reader with at least n bytes, every sequence of buffer sizes, every placement of Pending", "why_tests_cant": "The outcome depends on how the body reader fragments its data, when it returns Pending and how large each output buffer is; a test fixes one such schedule out of infinitely many.", "anchors": ["src/server/encode.rs Encoder::encode_head", "src/server/encode.rs Encoder::encode_fixed_body"]}
{"id": "C05", "title": "Sending a fixed-length response always finishes", "statement": "Polling the sender of a fixed-length response always returns. (False of the code: if the reader ends before the declared length, the encoder calls itself without bound.)", "quantifier": "every body reader and every declared length", "why_tests_cant": "Non-termination cannot be observed by a test, and a short reader is a fault case that tests do not construct.", "anchors": ["src/server/encode.rs Encoder::encode_fixed_body", "src/body.rs Body::from_reader"]}
{"id": "C06", "title": "Exactly one framing header, chosen by the Body", "statement": "A sent response head contains exactly one of content-length and transfer-encoding; it is 'content-length: n' iff the Body has length n and 'transfer-encoding: chunked' iff the length is unknown, whatever content-length or transfer-encoding headers the application put on the response.", "quantifier": "every header map (any number of user-set framing headers), every body", "why_tests_cant": "The header map is unbounded and user controlled; a missed combination is a response-splitting bug.", "anchors": ["src/server/encode.rs Encoder::start", "src/server/response_writer.rs InnerResponse::send"]}
{"id": "C07", "title": "Date header is sent and not duplicated", "statement": "A sent response carries the application's date header(s) unchanged if it set any, and otherwise exactly one generated date header.", "quantifier": "every header map, every clock value", "why_tests_cant": "Quantifies over all header maps and clock values.", "anchors": ["src/server/encode.rs Encoder::start"]}
{"id": "C08", "title": "Default content type", "statement": "A response with a non-empty or unknown-length body and no content-type gets 'application/octet-stream'; a content-type set by the application is never changed; a response with a known-empty body gets none added.", "quantifier": "every header map, every body length", "why_tests_cant": "Quantifies over all header maps and body lengths.", "anchors": ["src/server/encode.rs Encoder::start"]}
{"id": "C09", "title": "Response head is exactly the application's response", "statement": "The head bytes are the status line for the response's version and status, then one framing line, then a generated date line if needed, then every remaining header of the response exactly once, value bytes verbatim, in header-map order, then a blank line; and it is delivered intact through any sequence of buffer sizes.", "quantifier": "every status, version, header map with opaque value bytes, every sequence of buffer sizes", "why_tests_cant": "Unbounded header maps and arbitrary split points of the head across polls.", "anchors": ["src/server/encode.rs Encoder::start", "src/server/encode.rs Encoder::encode_head"]}
{"id": "C10", "title": "bytes_written is the truth", "statement": "If ResponseWriter::send returns Ok(w), then the transport accepted the complete encoded response and w.bytes_written() equals the number of bytes it accepted.", "quantifier": "every response, every behaviour of the transport (partial writes, Pending)", "why_tests_cant": "Depends on every pattern of short writes and Pending results.", "anchors": ["src/server/response_writer.rs InnerResponse::send", "src/server/response_writer.rs ResponseWritten::bytes_written"]}
{"id": "C11", "title": "A failed send leaves a prefix and reports the error", "statement": "If the transport or body reader fails during send, send returns the error and the transport has received a prefix of the encoded response, nothing reordered or repeated; if it was the body reader that failed, what the transport has received is not a complete response, so that the recipient can tell.", "quantifier": "every failure point", "why_tests_cant": "There is one case per byte position at which the failure may strike.", "anchors": ["src/server/response_writer.rs InnerResponse::send"]}
{"id": "C12", "title": "Chunked request body: what is read is what was sent", "statement": "The bytes read from a chunked message body, over any number of reads, always form a prefix of the payload encoded in the received byte stream: never reordered, duplicated, corrupted, or contaminated by framing bytes.", "quantifier": "every received byte stream (valid or not), every fragmentation by the transport, every Pending, every sequence of non-empty caller buffers, at every point of the read", "why_tests_cant": "The decoder keeps offsets into a reused buffer; the interesting states arise from particular alignments of fragments, chunk borders and read sizes.", "anchors": ["src/chunked/decoder.rs ChunkedDecoder::poll_read", "src/chunked/decoder.rs ChunkedDecoder::poll_read_chunk"]}
{"id": "C13", "title": "Chunked request body: everything that was sent is read", "statement": "If the peer sends a complete valid chunked message, reading the body to the end yields the whole payload. (False of the code beyond its 4096-byte window: when the window's end is reached with a non-empty offset the decoder reads into an empty slice and takes the resulting 0 for end of stream.)", "quantifier": "every valid chunked message, every fragmentation and every sequence of read sizes", "why_tests_cant": "The loss happens only when the buffer end coincides with a chunk border; the existing tests miss it.", "anchors": ["src/chunked/decoder.rs ChunkedDecoder::poll_read"]}
{"id": "C14", "title": "A truncated chunked body is not presented as complete", "statement": "If the connection ends before the terminating chunk, the application can tell: reading the body reports an error. (False of the code: it reports a normal end of stream; what does hold is that trailers are then never delivered.)", "quantifier": "every proper prefix of every chunked message, every schedule", "why_tests_cant": "One case per truncation point.", "anchors": ["src/chunked/decoder.rs ChunkedDecoder::poll_read_chunk", "src/chunked/decoder.rs ChunkedDecoder::poll_read"]}
{"id": "C15", "title": "Malformed chunk framing is reported as an error", "statement": "If the received stream has an invalid chunk-size line, a chunk not followed by CRLF or an invalid trailer section, reading the body delivers the data before that point and never any byte after it, and ends with an error (or with a premature end of stream of kind C13) - never with delivered trailers.", "quantifier": "every malformed stream, every schedule", "why_tests_cant": "Unbounded family of malformed inputs and alignments.", "anchors": ["src/chunked/decoder.rs decode_init", "src/chunked/decoder.rs decode_chunk_end", "src/chunked/decoder.rs decode_trailer"]}
{"id": "C16", "title": "Trailers are delivered once, complete, and only for a complete body", "statement": "The trailers of a chunked message are made available at most once, only after every payload byte has been handed out, and are exactly the trailer fields in the stream.", "quantifier": "every stream, every schedule", "why_tests_cant": "Depends on where the trailer section is split.", "anchors": ["src/chunked/decoder.rs decode_trailer", "src/chunked/decoder.rs State::TrailerDone", "src/trailers.rs TrailersSender::send"]}
{"id": "C17", "title": "Reading a chunked body never panics and every poll returns", "statement": "For every read with a non-empty buffer the decoder returns (data, Pending, end or error) after finitely many steps and never indexes outside its buffers. (With an empty buffer it can spin forever; the library itself never issues such a read.)", "quantifier": "every byte stream, every schedule, every non-empty buffer size", "why_tests_cant": "Termination and absence of out-of-bounds indexing for all states cannot be tested.", "anchors": ["src/chunked/decoder.rs ChunkedDecoder::poll_read"]}
{"id": "C18", "title": "End of a chunked body is final", "statement": "Once reading a chunked body has reported end of stream, later reads never return further data.", "quantifier": "every stream and schedule, any number of later reads", "why_tests_cant": "Any number of later reads in any environment.", "anchors": ["src/chunked/decoder.rs State::Done"]}
{"id": "C19", "title": "Chunked round trip", "statement": "What tophat sends as a chunked message, tophat's chunked decoder reads back as the same payload with empty trailers.", "quantifier": "every body, every sender schedule, every receiver schedule", "why_tests_cant": "Product of two infinite families of schedules.", "anchors": ["src/chunked/encoder.rs ChunkedEncoder::encode", "src/chunked/decoder.rs ChunkedDecoder"]}
{"id": "C20", "title": "Request head recognition does not depend on packet boundaries", "statement": "Which request (or error) a received head produces depends only on the bytes up to and including the first blank line, not on how the transport fragments or delays them.", "quantifier": "every byte stream, every fragmentation, every Pending placement", "why_tests_cant": "Exponentially many fragmentations.", "anchors": ["src/server/decode.rs decode"]}
{"id": "C21", "title": "Host is mandatory", "statement": "A request without a Host header is answered 400 and never reaches the endpoint.", "quantifier": "every request head without Host", "why_tests_cant": "All header sets.", "anchors": ["src/server/decode.rs decode", "src/server/decode.rs fail_to_response_and_log"]}
{"id": "C22", "title": "Only HTTP/1.1 is served", "statement": "A request with any other HTTP version is answered 505 (or 400 if the version is malformed) and never reaches the endpoint.", "quantifier": "every request head", "why_tests_cant": "All heads.", "anchors": ["src/server/decode.rs decode"]}
{"id": "C23", "title": "Unsupported transfer encodings end the connection", "statement": "If a request names, in any Transfer-Encoding header, anything other than chunked or identity (ASCII case-insensitively), the server answers 501, does not call the endpoint and accept returns Err(ConnectionClosedUnsupportedTransferEncoding) without reading further requests.", "quantifier": "every HTTP/1.1 request head in which that field is the first invalid framing field (for the call of the endpoint: every head with such a field)", "why_tests_cant": "All header sets and spellings.", "anchors": ["src/server/decode.rs decode", "src/server/decode.rs fail_to_crate_err", "src/server/mod.rs accept_with_opts"]}
{"id": "C24", "title": "Content-Length must be a number", "statement": "A request one of whose Content-Length headers is not a decimal number representable in usize is answered 400 and never reaches the endpoint.", "quantifier": "every header value", "why_tests_cant": "All byte strings.", "anchors": ["src/server/decode.rs decode"]}
{"id": "C25", "title": "Body framing decision", "statement": "The endpoint sees a chunked body iff the last Transfer-Encoding header is chunked; otherwise a fixed body whose length is the value of the last Content-Length header, or 0 without one.", "quantifier": "every request head the server accepts", "why_tests_cant": "All header sequences, including conflicting ones (request smuggling).", "anchors": ["src/server/decode.rs decode"]}
{"id": "C26", "title": "A fixed request body never contains foreign bytes", "statement": "Reading a fixed-length request body yields a prefix of the n bytes following the head, where n is the declared length, never a byte beyond; and read to the end it yields all n bytes if the peer sent them.", "quantifier": "every stream, fragmentation, sequence of reads", "why_tests_cant": "All fragmentations and read sizes.", "anchors": ["src/server/decode.rs decode", "src/body.rs Body::from_reader"]}
{"id": "C27", "title": "100-continue", "statement": "The interim response 'HTTP/1.1 100 Continue' is written iff the request's first Expect header is exactly '100-continue' and the head got past header validation, exactly once per such request and before anything else is written for it.", "quantifier": "every request head", "why_tests_cant": "All header sets.", "anchors": ["src/server/decode.rs handle_100_continue"]}
{"id": "C28", "title": "Every request is handled once and in order", "statement": "accept hands each successfully decoded request to the endpoint exactly once, in the order decoded, and does not start decoding the next one before the endpoint's response is finished; for each decode failure exactly one error response (none for a lost connection) is written and the endpoint is not called.", "quantifier": "every connection history", "why_tests_cant": "Unbounded histories of requests, failures and timeouts.", "anchors": ["src/server/mod.rs accept_with_opts", "src/server/mod.rs handle_decode_fail"]}
{"id": "C29", "title": "How accept ends", "statement": "accept returns Ok only when the peer closed the connection before a complete head or, with a timeout configured, the timeout fired while waiting for a head or writing an interim 100 Continue response; it returns Err only for an unsupported transfer encoding.", "quantifier": "every connection history and clock behaviour", "why_tests_cant": "All histories.", "anchors": ["src/server/mod.rs accept_with_opts", "src/timeout.rs TimeoutFuture::poll"]}
{"id": "C30", "title": "Keep-alive: every request on the connection is served", "statement": "If a client sends a sequence of valid requests on one connection, each is served. (False of the code for pipelined requests: bytes already buffered behind a request are discarded with it. It holds when each request reaches the server alone and its body is read to the end.)", "quantifier": "every sequence of requests, every fragmentation", "why_tests_cant": "Unbounded sequences; loss depends on packet boundaries.", "anchors": ["src/server/mod.rs accept_with_opts", "src/server/decode.rs decode"]}
{"id": "C31", "title": "Body bytes are never interpreted as a request", "statement": "Bytes belonging to a request's body never become the head of another request. (False of the code when the endpoint does not read the body and it arrives in a later packet.)", "quantifier": "every request, endpoint behaviour and fragmentation", "why_tests_cant": "All endpoint behaviours and packetisations.", "anchors": ["src/server/mod.rs accept_with_opts"]}
{"id": "C32", "title": "accept terminates when the connection is broken", "statement": "If reading from the connection fails, accept stops. (False of the code: a read error produces neither response nor exit, accept immediately reads again, for as long as reads fail.)", "quantifier": "every connection history with read errors", "why_tests_cant": "Non-termination.", "anchors": ["src/server/mod.rs handle_decode_fail", "src/server/decode.rs fail_to_crate_err"]}
{"id": "C33", "title": "Timeout semantics", "statement": "With a timeout configured, a head that is complete when polled is served even if the timeout has already expired; the timeout only takes effect at a poll at which the head is incomplete (or the interim 100 Continue response is blocked); without a timeout configured the clock has no effect.", "quantifier": "every interleaving of data arrival and timer expiry", "why_tests_cant": "All interleavings.", "anchors": ["src/timeout.rs TimeoutFuture::poll", "src/server/mod.rs accept_with_opts"]}
{"id": "C34", "title": "Glitch status", "statement": "When the endpoint returns a Glitch without having sent, exactly one response is written whose status is the Glitch's status or 500 if it has none, whose version is HTTP/1.1 unless set, with the Glitch's headers.", "quantifier": "every Glitch, however constructed (new, From<Error>, glitch, glitch_ctx, glitch_with_ctx, macros)", "why_tests_cant": "All Glitch values.", "anchors": ["src/server/glitch.rs Glitch::into_inner_response", "src/server/mod.rs accept_with_opts"]}
{"id": "C35", "title": "Error traces do not leak", "statement": "Unless verbose_glitch is set, the response produced from a Glitch does not depend on the error it was created from: two Glitches that differ only in the error text give byte-identical responses.", "quantifier": "every pair of errors, every Glitch", "why_tests_cant": "Non-interference is a relation between two runs.", "anchors": ["src/server/glitch.rs Glitch::into_inner_response"]}
{"id": "C36", "title": "Glitch body", "statement": "The response body of a Glitch is its message, followed in verbose mode by newline and the error text (or just the error text if there is no message), with exact content-length, and content-type text/plain iff that body is non-empty or the Glitch's own headers say so.", "quantifier": "every Glitch", "why_tests_cant": "All strings.", "anchors": ["src/server/glitch.rs Glitch::into_inner_response"]}
{"id": "C37", "title": "ResponseWriter header operations", "statement": "After any sequence of insert_header/append_header calls, the response sent carries for each header name exactly the values since and including the last insert of that name, in call order, and no others.", "quantifier": "every sequence of operations", "why_tests_cant": "Unbounded operation sequences.", "anchors": ["src/server/response_writer.rs ResponseWriter::append_header", "src/server/response_writer.rs ResponseWriter::insert_header"]}
{"id": "C38", "title": "ResponseWriter body and status setters", "statement": "The sent response has the status of the last set_status/set_code, the body of the last set_body/set_text/set_sse; set_text and set_sse set the content-type. (The documentation also promises that set_text sets 200 OK; false of the code.) set_code panics exactly for codes outside 100..=999.", "quantifier": "every sequence of setter calls", "why_tests_cant": "Unbounded operation sequences.", "anchors": ["src/server/response_writer.rs ResponseWriter"]}
{"id": "C39", "title": "Routing picks a registered route of the same method or answers 404", "statement": "Router::route calls an endpoint registered (last, for its pattern) for a pattern that matches the request path under the request's method, never one registered only for another method; if there is none it answers 404 with an empty body.", "quantifier": "every set of routes, every request, relative to the documented behaviour of path-tree", "why_tests_cant": "All route tables and paths.", "anchors": ["src/server/router.rs Router::route", "src/server/router.rs RouterBuilder::at"]}
{"id": "C40", "title": "Router params and data", "statement": "Inside an endpoint, req.params() are the captured parameters, get_param(k) the value of the first parameter named k, and req.data::<T>() the last data of type T given to the builder, or None.", "quantifier": "every builder history, every request", "why_tests_cant": "Unbounded builder histories.", "anchors": ["src/server/router.rs RouterRequestExt", "src/server/router.rs RouterBuilder::wrapped_data"]}
{"id": "C41", "title": "CORS: a disallowed origin is refused", "statement": "If an origin list is configured and the request's Origin is not in it, validate returns an error that is answered 400 without any access-control header, and the response being built is not touched.", "quantifier": "every Cors configuration, every request", "why_tests_cant": "All configurations and requests.", "anchors": ["src/server/cors.rs Cors::validate", "src/server/cors.rs Cors::is_origin_allowed"]}
{"id": "C42", "title": "CORS: simple requests", "statement": "For a non-OPTIONS request with an allowed Origin, validate succeeds and sets access-control-allow-origin to exactly that origin, plus the credentials / expose-headers headers iff configured, leaving every other header, the status and the body unchanged.", "quantifier": "every configuration, request and response under construction", "why_tests_cant": "All configurations, requests and partially built responses.", "anchors": ["src/server/cors.rs Cors::validate", "src/server/cors.rs Cors::append_common_headers"]}
{"id": "C43", "title": "CORS: preflight", "statement": "An OPTIONS request with Origin is answered 200 with the allow headers iff its origin is allowed, it has an allowed access-control-request-method, and every comma separated element of its access-control-request-headers is an allowed header name (case-insensitively, no surrounding blanks); otherwise 400. It never reaches the endpoint.", "quantifier": "every configuration and request", "why_tests_cant": "All configurations and requests.", "anchors": ["src/server/cors.rs Cors::validate"]}
{"id": "C44", "title": "CORS: other requests pass unchanged", "statement": "A request without Origin header passes validate and the response under construction is unchanged.", "quantifier": "every configuration and request", "why_tests_cant": "All configurations and requests.", "anchors": ["src/server/cors.rs Cors::validate"]}
{"id": "C45", "title": "CORS builder", "statement": "The configuration obtained from a builder is determined by the set of methods, headers, exposed headers and origins added, independent of order and repetition, except that allow_any_origin discards the origins added so far; max_age and credentials are the last set.", "quantifier": "every builder call sequence", "why_tests_cant": "Unbounded call sequences.", "anchors": ["src/server/cors.rs CorsBuilder"]}
{"id": "C46", "title": "Identity: a set token authorizes its user until it expires", "statement": "A request carrying the cookie produced by set_auth_token(user), at any time up to and including issue time + expiration_time, makes authorized_user return exactly user; afterwards None.", "quantifier": "every user, configuration and pair of times, relative to the correctness of the JWT library", "why_tests_cant": "All users, configurations and times.", "anchors": ["src/server/identity.rs Identity::set_auth_token", "src/server/identity.rs Identity::authorized_user", "src/server/identity.rs Identity::make_token"]}
{"id": "C47", "title": "Identity: no authorization without a valid token", "statement": "authorized_user returns Some(u) only if the value of a cookie with the configured name is a token that verifies under the server key, names u, and is not expired.", "quantifier": "every request", "why_tests_cant": "All requests.", "anchors": ["src/server/identity.rs Identity::authorized_user", "src/server/identity.rs get_cookie"]}
{"id": "C48", "title": "Identity: forget logs out", "statement": "The cookie set by forget never authorizes anyone, has Max-Age 0 and the same name and path as the one set by set_auth_token.", "quantifier": "every configuration and time after 1970", "why_tests_cant": "All configurations and times.", "anchors": ["src/server/identity.rs Identity::forget"]}
{"id": "C49", "title": "Identity: the cookie is found among others", "statement": "If the request carries a cookie with the configured name, its token is considered. (False of the code: only the first cookie of each Cookie header is looked at, and one malformed Cookie header hides all later ones.)", "quantifier": "every Cookie header", "why_tests_cant": "All cookie strings.", "anchors": ["src/server/identity.rs get_cookie"]}
{"id": "C50", "title": "Client request encoding is exact for every schedule", "statement": "client::connect writes the request line, the host header if missing, content-length, all request headers verbatim, a blank line and then exactly the bytes the body reader yields, for every pattern of buffer sizes, Pending and short writes. It waits for a response only when the whole request was written, and returns an error if the transport reported one.", "quantifier": "every request, every schedule", "why_tests_cant": "All schedules.", "anchors": ["src/client/encode.rs Encoder::encode", "src/client/encode.rs Encoder::poll_read", "src/client/mod.rs connect"]}
{"id": "C51", "title": "Client framing is consistent", "statement": "The request written by the client has exactly one content-length header and it equals the number of body bytes that follow. (False of the code if the application sets content-length itself or the reader yields more than the declared length; it panics on bodies of unknown length.)", "quantifier": "every request", "why_tests_cant": "All header maps and bodies.", "anchors": ["src/client/encode.rs Encoder::encode", "src/client/encode.rs Encoder::poll_read"]}
{"id": "C52", "title": "Client to server round trip", "statement": "A request with a body of known length, encoded by the client and received by the server in any fragmentation, is decoded to the same method, request target, header fields (plus host and content-length) and body.", "quantifier": "every request whose head has at most 16 fields, whose header values do not begin with a blank and which sets no framing header itself, every schedule", "why_tests_cant": "All requests and schedules.", "anchors": ["src/client/encode.rs Encoder", "src/server/decode.rs decode"]}
{"id": "C53", "title": "Client returns the response's status and headers", "statement": "The Response returned by connect has the status code and headers the server sent. (False of the code for chunked responses, which always come back as 200 with no headers.)", "quantifier": "every response", "why_tests_cant": "All responses.", "anchors": ["src/client/decode.rs decode"]}
{"id": "C54", "title": "Client rejects ambiguous or oversized heads", "statement": "A response with both Content-Length and Transfer-Encoding, a response head of 8 KiB or more, a connection closed before the end of the head, or a version other than 1.1 makes connect return Err.", "quantifier": "every response stream and fragmentation", "why_tests_cant": "All streams.", "anchors": ["src/client/decode.rs decode"]}
{"id": "C55", "title": "Server to client round trip", "statement": "A fixed-length response sent by the server and received by the client in any fragmentation is returned with the same status, the same headers (plus framing and date) and the same body.", "quantifier": "every response of declared length whose head has at most 128 fields and 8 KiB and whose header values do not begin with a blank, every schedule", "why_tests_cant": "All responses and schedules.", "anchors": ["src/server/encode.rs Encoder", "src/client/decode.rs decode"]}
{"id": "C56", "title": "Body conversions", "statement": "Body::from_bytes(b).into_bytes() is b; a Body made from a string has the length of its UTF-8 encoding and into_string gives it back; into_string fails iff the bytes are not UTF-8; the declared length of such bodies equals the number of bytes they yield.", "quantifier": "every byte string, every read schedule", "why_tests_cant": "All byte strings.", "anchors": ["src/body.rs Body", "src/util.rs Cursor"]}
{"id": "C57", "title": "into_bytes_with_trailer / into_string_with_trailer complete", "statement": "Awaiting the body together with its trailers completes once the peer has sent the message. (False of the code: for a body that is not chunked, or a truncated chunked one, the trailer sender is still alive inside the Body being awaited, so it waits forever.)", "quantifier": "every body", "why_tests_cant": "Deadlock.", "anchors": ["src/body.rs Body::into_bytes_with_trailer", "src/body.rs Body::recv_trailers"]}
{"id": "C58", "title": "At most one response per request", "statement": "For each request at most one response is written. (False of the code if the endpoint fails after its response was sent, or if sending failed part-way: a second, error response is appended. It holds if the endpoint returns the result of send, or fails before sending, and the transport does not fail.)", "quantifier": "every endpoint behaviour and transport behaviour", "why_tests_cant": "All endpoint programs.", "anchors": ["src/server/mod.rs accept_with_opts"]}
{"id": "C59", "title": "No bytes from elsewhere appear in a body", "statement": "Every byte a chunked body delivers was received on its own connection as payload of that body, also when the caller reads again after an error. (False of the code after an error: a later read can deliver old contents of a recycled buffer.)", "quantifier": "every byte stream, fragmentation, buffer contents and sequence of reads", "why_tests_cant": "Depends on what earlier connections left in a recycled buffer and on the position of the error.", "anchors": ["src/chunked/decoder.rs ChunkedDecoder::poll_read"]}
{"id": "C60", "title": "Chunked request bodies", "statement": "The bytes an endpoint reads from a request with Transfer-Encoding: chunked are a prefix of the decoded payload that follows the head, and if the framing of the chunked message (everything but its chunks of 4096 bytes and more) takes at most 4096 bytes, reading to the end gives exactly the payload.", "quantifier": "every byte stream, fragmentation, endpoint behaviour", "why_tests_cant": "All streams, packetisations and read sizes.", "anchors": ["src/server/decode.rs decode", "src/chunked/decoder.rs ChunkedDecoder::poll_read", "src/body.rs Body"]}
{"id": "C61", "title": "No input crashes or blocks the server", "statement": "Whatever bytes a peer sends, in whatever fragments, and whatever errors and timeouts happen on the connection, handling the connection does not panic and every step of it returns, provided the endpoint does not read the body again after an error and sends responses whose declared length does not exceed their body and that do not meet the condition of C03.", "quantifier": "every byte stream, fragmentation, transport and timer behaviour, every endpoint as described", "why_tests_cant": "Absence of panics and hangs over all inputs.", "anchors": ["src/server/mod.rs accept_with_opts", "src/server/decode.rs decode", "src/server/encode.rs Encoder"]}
{"id": "C62", "title": "Identity: settings", "statement": "An identity built with Identity::build(key), followed by setters in any order and number, has for each setting the last value given, or else the documented default: cookie name jwt, path /, Secure and HttpOnly set, expiration after 24 hours, no issuer.", "quantifier": "every sequence of setter calls", "why_tests_cant": "All sequences.", "anchors": ["src/server/identity.rs Identity::build", "src/server/identity.rs IdentityBuilder"]}
{"id": "C63", "title": "Client returns the response's body", "statement": "The bytes read from the Response returned by connect are the body the server sent: the declared number of bytes, the payload of the chunked body, or everything up to the close of the connection, in this order of RFC 7230. (False of the code: a body that ends with the connection is lost, and so is one whose coding is written Chunked.)", "quantifier": "every response stream, fragmentation and sequence of reads", "why_tests_cant": "All streams, packetisations and read sizes.", "anchors": ["src/client/decode.rs decode", "src/chunked/decoder.rs ChunkedDecoder::poll_read"]}
{"id": "C64", "title": "Client memory for a response head is bounded", "statement": "However long the server goes on sending, the client holds at most 8 KiB of a response head in memory. (False of the code: the limit is only looked at after each complete line.)", "quantifier": "every response stream and fragmentation", "why_tests_cant": "Unbounded streams.", "anchors": ["src/client/decode.rs decode"]}
{"id": "C65", "title": "A client and a server talk to each other", "statement": "When a tophat client is connected to a tophat server, connect() returns the response that the endpoint sent for this request: its status, headers and body. (False of the code for requests that expect an interim response: the client takes the interim response for the final one; and for responses without declared length, see C53.)", "quantifier": "every request, endpoint, response and fragmentation in both directions", "why_tests_cant": "All programs on both sides and all schedules.", "anchors": ["src/client/mod.rs connect", "src/server/mod.rs accept"]}
{"id": "C66", "title": "Reading a body does not panic", "statement": "Converting the body of a received request or response with into_bytes or into_string does not panic, whatever length the peer declares and whatever it sends. (False of the code: into_string reserves the declared length up front and panics if it exceeds isize::MAX.)", "quantifier": "every request or response, fragmentation and declared length", "why_tests_cant": "All lengths a peer can declare.", "anchors": ["src/body.rs Body::into_string", "src/body.rs Body::into_string_with_trailer", "src/body.rs Body::into_bytes"]}
{"id": "C67", "title": "A computation over the network", "statement": "An endpoint that awaits the request body with into_bytes and answers with any function f of it, asked by a tophat client that awaits the response body with into_bytes: the client has f of the body that it sent, however the bytes are cut up and delayed in both directions.", "quantifier": "every request of at most 16 header fields, without Expect and with no header value that begins with a blank, every function f, every fragmentation and delay in both directions", "why_tests_cant": "All programs, data and schedules.", "anchors": ["src/client/mod.rs connect", "src/server/mod.rs accept", "src/body.rs Body::into_bytes"]}
{"id": "C68", "title": "What the body has yielded is sent without waiting for more", "statement": "While a response is sent whose body reader falls silent (stays Pending), the transport soon has the head and every byte that the reader has yielded so far: none is held back until more data or the end comes. For a body of unknown length they come in whole chunks. (For streams such as server-sent events.)", "quantifier": "every response, every body reader and every length of silence, every pattern of short writes and delays of the transport", "why_tests_cant": "All readers, schedules and moments.", "anchors": ["src/server/response_writer.rs InnerResponse::send", "src/server/encode.rs Encoder::poll_read", "src/chunked/encoder.rs ChunkedEncoder::encode_chunks"]}
{"id": "C69", "title": "Server-sent events", "statement": "After set_sse(stream), the response is chunked with exactly one content-type, text/event-stream, whatever was set before; if send succeeds, the stream reported no error and the client gets all its items in order and nothing else (empty items do not end the message); and while the stream is silent, every item it has yielded is already sent.", "quantifier": "every response built before, every stream (sizes of items, delays, errors), every pattern of short writes and delays of the transport", "why_tests_cant": "All streams, schedules and moments.", "anchors": ["src/server/response_writer.rs ResponseWriter::set_sse", "src/body.rs Body::from_reader", "src/server/encode.rs Encoder::poll_read"]}
{"id": "C70", "title": "Nothing waits for more than it needs", "statement": "As soon as the head of a request has arrived, the request is refused or handed to the endpoint; a body of declared length can be read to its end as soon as its last byte has arrived, and a chunked body, whose framing takes at most 4096 bytes, as soon as the line that ends it has (the reader using non-empty buffers, and not reading again after the reported end); and likewise the client returns the response when its head has arrived, and its body can be read. None of this waits for the peer to send anything more or to close the connection.", "quantifier": "every request or response that has arrived, everything that follows it, every fragmentation and delay, every endpoint, and every length of silence afterwards", "why_tests_cant": "All inputs, schedules and lengths of silence.", "anchors": ["src/server/decode.rs decode", "src/server/mod.rs accept", "src/chunked/decoder.rs ChunkedDecoder", "src/client/decode.rs decode", "src/body.rs Body"]}
{"id": "C71", "title": "The peer reads the responses that were sent, no more and no fewer", "statement": "What the server writes on a connection is read, by any recipient that goes by RFC 7230 section 3.3.3 and knows the methods of its requests, as exactly one final response for each request, in order, each possibly preceded by 100 Continue, with the status, headers and body that the endpoint sent (or those of its Glitch, or an empty error response), and nothing left over. No header value and no body byte can look like the end of a response or like another one.", "quantifier": "every endpoint, every response (status, headers, body bytes, declared length or stream), every sequence of requests, good or bad, every fragmentation and delay, every transport that takes what is written", "why_tests_cant": "All headers, bodies, requests and schedules; response splitting is about the ones nobody thought of.", "anchors": ["src/server/encode.rs Encoder", "src/server/mod.rs accept", "src/server/decode.rs decode", "src/server/glitch.rs Glitch", "src/server/response_writer.rs send"]}
{"id": "C72", "title": "Connections are isolated from each other", "statement": "What happens on one connection is a function of what arrives on it and of its own endpoint: which requests are delivered, how the reads of their bodies are answered, what is written, and how the connection ends do not depend on what other connections of the same process have received or are receiving at the same time. The same holds for the response that connect returns and for the reads of its body.", "quantifier": "every connection, every history of other connections and every interleaving with them (they share the pool of receive buffers), every endpoint, every fragmentation and delay", "why_tests_cant": "Two runs have to be compared, for all contents that other connections can leave in the shared buffers.", "anchors": ["src/chunked/decoder.rs POOL", "src/chunked/decoder.rs ChunkedDecoder::poll_read", "src/server/mod.rs accept", "src/client/mod.rs connect"]}
{"id": "C73", "title": "A task that waits is going to be woken", "statement": "Whenever reading a request or response body, decoding a request head, or producing the bytes of a request or response answers Pending, then during that same poll the transport, or the application's own body or event stream, answered Pending and was not polled again since, so it has the waker of the task. Nothing else ever answers Pending, so a task is never left sleeping although everything it waits for is there.", "quantifier": "every transport, every body reader and every event stream, in every state that can arise between polls, every buffer size, every sequence of answers (Pending, data, errors) during one poll", "why_tests_cant": "A lost wake-up needs one particular sequence of Pending answers inside one poll, and shows as a hang, not as a wrong result.", "anchors": ["src/chunked/decoder.rs ChunkedDecoder::poll_read", "src/body.rs Body", "src/server/decode.rs decode", "src/server/encode.rs Encoder::poll_read", "src/chunked/encoder.rs ChunkedEncoder", "src/client/encode.rs Encoder::poll_read", "src/server/response_writer.rs set_sse"]}
{"id": "C74", "title": "Memory for a chunked body does not depend on its length", "statement": "However long a chunked request or response body is, and however it is read, the library holds at most 512 MiB of memory for it between reads; only 4096 bytes if no size line and no trailer section is longer than that; and for longer ones at most 1024 bytes more than what has arrived of the line.", "quantifier": "every byte stream, fragmentation and sequence of reads (the first bound also after errors and after the end), every content of the recycled buffers, every way the allocator rounds up", "why_tests_cant": "Bodies of unbounded length, and all fragmentations.", "anchors": ["src/chunked/decoder.rs ChunkedDecoder::poll_read", "src/chunked/decoder.rs MAX_CAPACITY"]}
{"id": "C75", "title": "What was written is flushed before anybody waits", "statement": "Everything that the library has written to the transport has been flushed when it waits for the peer or for the application: when send has returned Ok; while connect waits for the response; while the server waits for the next request, and when it has returned; while an endpoint waits for the body of a request that asked for 100 Continue; and while send waits for the next bytes of a streamed response body.", "quantifier": "every transport that reports no errors (any partial writes and delays), every response, request and endpoint, bodies that fail half-way included, any number of requests on the connection", "why_tests_cant": "Transports that buffer, such as TLS streams; the moment at which somebody waits is not visible from a returned value.", "anchors": ["src/server/decode.rs handle_100_continue", "src/server/response_writer.rs InnerResponse::send", "src/server/mod.rs accept_with_opts", "src/client/mod.rs connect"]}
{"id": "C76", "title": "The body of a request can be passed on as the body of the response", "statement": "An endpoint that hands the body of the request to its response (resp_wtr.set_body(req.into_body())) and sends it answers with exactly that body: what is written is one response with the status and headers the endpoint chose and the length the request declared, its body is the body of the request and nothing else, and a body that is cut off is not passed on as a complete one, nor does it keep the server busy.", "quantifier": "every request with a body of declared length or a chunked one, every fragmentation and delay of the connection, every transport for the response (partial writes, delays, errors), every status and header map", "why_tests_cant": "Decoder and encoder run interleaved, each with its own buffer, driven by one copy loop; the states in which both are in the middle of something are too many to enumerate.", "anchors": ["src/server/decode.rs decode", "src/server/response_writer.rs ResponseWriter::set_body", "src/server/response_writer.rs ResponseWriter::send", "src/server/encode.rs Encoder::poll_read", "src/body.rs Body", "src/server/mod.rs accept_with_opts"]}
{"id": "C77", "title": "The server ends requests where everybody else does", "statement": "The server takes as the body of a request exactly the bytes that RFC 7230 section 3.3.3 says are its body, so that no part of one request can be taken for another one by the server but not by a proxy in front of it: the endpoint is called with the framing that the RFC prescribes for the header fields, what it reads comes from the body of that request, all of it when it sees the end, and a request for which the RFC prescribes no framing (conflicting lengths, a last transfer coding other than chunked, a length that is not a number) is refused.", "quantifier": "every request head, every combination of Content-Length and Transfer-Encoding fields, every byte stream behind it, fragmentation and endpoint behaviour", "why_tests_cant": "All combinations of framing fields with all streams behind them (request smuggling).", "anchors": ["src/server/decode.rs decode"]}
{"id": "C78", "title": "Errors say what happened", "statement": "The text of an error returned by connect tells how far the request got: a message about the address means that nothing was written, one that begins with Io Error means that writing the request failed and names the error of the transport or of the body, and any other means that the whole request was written and says what is wrong with the response (connection lost, closed, head too long, not a response, wrong version, both framing fields, or the error of a library). The text of every error ends with that of its cause, which source returns; so does the text of a failed conversion of a body; and an endpoint that leaves with ? on such an error answers with that text if Glitches are verbose and with an empty body if not.", "quantifier": "every request, every transport schedule and failure, every byte stream of the peer, every text of an underlying error", "why_tests_cant": "All failures at all points of an exchange, with all that the peer may have sent.", "anchors": ["src/client/error.rs ClientError", "src/client/mod.rs connect", "src/client/encode.rs Encoder::encode", "src/client/decode.rs decode", "src/body.rs error::BodyError", "src/server/glitch.rs Glitch::new_with_err"]}
{"id": "C79", "title": "A fetched response can be passed on", "statement": "An endpoint that fetches a response with connect and answers with it (*resp_wtr.response_mut() = connect(..).await?; resp_wtr.send().await) passes on that response: its own client reads one response with the same status, the same body and the same header fields, apart from the framing (a missing Date and Content-Type are filled in); if connect fails, nothing is written; a response that is cut off is not passed on as a complete one, nor does it keep the endpoint busy forever.", "quantifier": "every response of the other server (length announced, chunked, ended by the connection, cut off), every fragmentation and delay on both connections, every transport for the answer (partial writes, delays, errors)", "why_tests_cant": "Client decoder and server encoder run interleaved; the responses that get lost are those that a test server of the same library does not send.", "anchors": ["src/client/mod.rs connect", "src/client/decode.rs decode", "src/server/response_writer.rs ResponseWriter::response_mut", "src/server/response_writer.rs ResponseWriter::send", "src/server/encode.rs Encoder"]}
{"id": "C80", "title": "Upper and lower case matter only where HTTP says so", "statement": "Field names, and the values of Transfer-Encoding and Expect, can be written in upper or lower case: two requests that differ only in that are answered alike, or reach the endpoint with the same method, target, body length and the same values under every name; two responses that differ only in that make connect return the same status, length and values, with the same body.", "quantifier": "every pair of requests or responses that differ in case only, every fragmentation and delay of each, whatever follows them, every endpoint", "why_tests_cant": "All spellings of all names (2^n for a name of n letters), and pairs of runs.", "anchors": ["src/server/decode.rs decode", "src/server/decode.rs handle_100_continue", "src/client/decode.rs decode"]}
{"id": "C81", "title": "Server memory for a request head is bounded", "statement": "However long the head that a peer sends, and however long it goes on without ending it, the server keeps only a bounded number of its bytes in memory, and the request that reaches the endpoint is of bounded size.", "quantifier": "every peer, every fragmentation of what it sends, every moment of waiting for a head", "why_tests_cant": "All sizes, all moments.", "anchors": ["src/server/decode.rs decode"]}
{"id": "C82", "title": "A client reaches the handler that is registered", "statement": "A tophat client sends a request to a tophat server whose endpoint is a router. If a route for its method matches its path, connect returns the response of a handler that is registered for the method, under a matching pattern, and not replaced by a later registration of that pattern, and this handler has been given the parts of the path that its parameters stand for. If no route for its method matches, connect returns an empty 404.", "quantifier": "every sequence of registrations with patterns that start with a slash and methods without asterisk, every request with a body of known length, without Expect, with at most 16 header fields and no value that begins with a blank, every handler that answers with a declared length, at most 128 header fields, less than 8 KiB of them and no value that begins with a blank, every fragmentation in both directions", "why_tests_cant": "All routes, all requests, all schedules.", "anchors": ["src/server/router.rs Router::route", "src/client/mod.rs connect", "src/server/mod.rs accept_with_opts"]}
{"id": "C83", "title": "A user who has logged in is recognised, over the network", "statement": "A client sends a request that is answered after set_auth_token(user). The response that connect returns has a set-cookie field; if the client sends this cookie in first place with a later request, on any connection to any server with the same identity settings, the endpoint there finds with authorized_user exactly this user until the token expires, and nobody after that, and the client gets the answer that the endpoint makes of it. If the cookie was made by forget, nobody is found.", "quantifier": "every user, time, identity settings with a cookie name that can be sent, pair of requests with bodies of known length, without Expect, with at most 16 header fields and no value that begins with a blank, responses of at most 128 header fields and less than 8 KiB of them, every fragmentation in both directions of both connections", "why_tests_cant": "All users, all times, all schedules.", "anchors": ["src/server/identity.rs Identity::set_auth_token, authorized_user, forget", "src/client/mod.rs connect", "src/server/mod.rs accept_with_opts", "examples/identity.rs"]}
{"id": "C84", "title": "Events reach a listening client as they come", "statement": "A client that reads a streamed response (server-sent events, a chunked body of unknown length) gets every item that the stream has yielded, without waiting for the next one or for the end: when the server has sent the items and the stream is silent, connect has returned and reading the body yields all of them and nothing else, and no end of the body, however long the silence lasts. The same holds for an endpoint that reads an upload, chunked or of declared length, from a client that is silent.", "quantifier": "every stream of items and every silence after them, every transport of the server (partial writes, delays), every fragmentation and delay of the client's connection, every sequence of read sizes", "why_tests_cant": "A property of the moments at which nothing happens, on both sides of a connection; all streams, all schedules.", "anchors": ["src/server/response_writer.rs ResponseWriter::set_sse", "src/server/encode.rs Encoder::poll_read", "src/client/decode.rs decode", "src/chunked/decoder.rs ChunkedDecoder::poll_read"]}
{"id": "C85", "title": "With a timeout, a silent peer is given up", "statement": "With a timeout configured, a connection whose peer has fallen silent is given up when the timer fires: accept returns. (False of the code: the timer is asked only while accept waits for a head or writes an interim response. A peer that is silent in the middle of a body that the endpoint reads, or that does not take the response, holds the connection however often the time is over.)", "quantifier": "every connection history before the silence, every amount of the head that has arrived and every trickle of it, every moment at which the timer fires, every length of the silence", "why_tests_cant": "Interleavings of arrival, silence and timer over an unbounded history.", "anchors": ["src/server/mod.rs accept_with_opts", "src/timeout.rs TimeoutFuture::poll"]}
{"id": "C86", "title": "Client and server do not wait for each other for ever", "statement": "A client calls connect on a connection to a server, and the connection holds only so many bytes in each direction: a write takes what there is room for, and waits when there is none. Then the exchange comes to its end: the server sends its response, and the client has all of it, whatever the capacities are and in whatever order the two are polled, and nothing panics on the way. (False of the code if the endpoint answers before it has read the body: the client does not read until it has written its whole request, so that a long request and a long response block each other.)", "quantifier": "all capacities of at least one byte, all fair schedules of the two tasks, all requests with bodies of known length and without Expect, all endpoints that read the body before they answer, all responses that can be sent", "why_tests_cant": "Deadlock freedom over unbounded schedules, sizes and capacities; a test runs one schedule, usually with buffers that are larger than its messages.", "anchors": ["src/client/mod.rs connect", "src/server/mod.rs accept_with_opts", "src/server/decode.rs decode", "src/server/response_writer.rs ResponseWriter::send"]}
{"id": "C87", "title": "A body can be given to another task", "statement": "An endpoint gives the body of its request to another task and returns its response. The task then gets from the body exactly the rest of it, and the requests that follow on the connection are served as if there were no such task, whoever is polled first. (False of the code when a part of the body comes in a later packet than the head: the server, which does not wait for the task, takes this part for the beginning of the next request, or the task gets bytes of the next request as its body.)", "quantifier": "every schedule of reads of the task and polls of the server, every size of the reads, every endpoint and every later traffic", "why_tests_cant": "The outcome depends on the interleaving of two tasks that read from the same socket.", "anchors": ["src/server/mod.rs accept_with_opts", "src/server/decode.rs decode", "src/body.rs Body"]}
{"id": "C88", "title": "A body of declared length that is cut off is not presented as complete", "statement": "If a request or a response declares a length and the connection ends before so many bytes have come, into_bytes reports an error, on the server and on the client. (False of the code if the peer closes the connection: into_bytes returns Ok with the bytes that have come. An error of the connection is reported, and the application can compare the length of what it got with the declared one.)", "quantifier": "every declared length, every point at which the connection ends, every fragmentation and delay", "why_tests_cant": "One case per truncation point.", "anchors": ["src/body.rs Body::into_bytes", "src/server/decode.rs decode", "src/client/decode.rs decode"]}
{"id": "C89", "title": "A response whose body fails half-way is not taken for a complete one", "statement": "An endpoint answers with a body that yields some bytes and then an error. Then the recipient can tell that the response is not complete: either it gets the error response instead, or the body that it gets is not well-formed, and into_bytes of the client returns an error. (False of the code for responses of declared length: the server sends its error response right behind what it has sent of the body, and the client takes the beginning of that for the rest of the body.)", "quantifier": "every streamed body, every point at which it fails, every transport, fragmentation and delay on both sides, every error response", "why_tests_cant": "One case per failing body, point of failure and pattern of polls.", "anchors": ["src/server/mod.rs accept_with_opts", "src/server/response_writer.rs ResponseWriter::send", "src/server/encode.rs Encoder::poll_read", "src/chunked/encoder.rs ChunkedEncoder", "src/client/decode.rs decode", "src/body.rs Body::into_bytes"]}
{"id": "C90", "title": "Giving up on a slow response does not leave the client with a wrong one", "statement": "An endpoint sends a response, gives up before that is done (it drops the future of send, as a timeout does) and returns an error. Then the client gets the whole response and nothing else, or the error response and nothing else, or it can tell that the response is not complete: the body that it gets is not well-formed, and into_bytes of the client returns an error. (False of the code for responses of declared length: the error response is sent right behind what has been sent of the body, and the client takes the beginning of that for the rest of the body. False also if the whole response is sent but not yet flushed: then the error response follows as an answer to no request.)", "quantifier": "every response with a body that does not fail, every moment of giving up, every transport, fragmentation and delay on both sides, every error response", "why_tests_cant": "One case per body, moment of cancellation and pattern of polls.", "anchors": ["src/server/response_writer.rs ResponseWriter::send", "src/server/response_writer.rs InnerResponse::send", "src/server/mod.rs accept_with_opts", "src/server/encode.rs Encoder::poll_read", "src/server/glitch.rs Glitch", "src/client/decode.rs decode", "src/body.rs Body::into_bytes"]}
{"id": "C91", "title": "Errors reach the client", "statement": "A tophat client is connected to a tophat server, and the endpoint, having read as much of the body as it likes, returns an error and has not sent anything. Then connect returns a response with the error's status (500 if it has none), its headers, the content type text/plain if there is a body, and as body its message and, only if the server is verbose, the text of the error that it was made from. If the server refuses a request itself, the client gets a response with the status of the refusal, 400 or 505, and an empty body.", "quantifier": "every endpoint and every error with headers that the client accepts (no value that begins with a blank, at most 124 fields, below 7900 bytes), every request of at most 16 header fields, without Expect and with no header value that begins with a blank, every fragmentation and delay in both directions", "why_tests_cant": "All endpoints and errors, all schedules of both sides.", "anchors": ["src/server/glitch.rs Glitch::into_inner_response", "src/server/mod.rs accept_with_opts", "src/client/mod.rs connect", "src/client/decode.rs decode"]}
{"id": "C92", "title": "Whatever one side sends, the other accepts", "statement": "Every request that a tophat client sends without an error reaches the endpoint of a tophat server with all its header fields, and every response that a tophat server sends with success is returned by a tophat client with all its header fields, whatever their number, length and values. (False of the code: the server refuses a request with more than 16 header fields, and connect returns 400; the client reports an error for a response whose head has 8 KiB or more, or more than 128 fields; and both lose the blanks at the beginning of header values.)", "quantifier": "every request and response with header names and values that the http crate permits, every fragmentation", "why_tests_cant": "All header maps, all schedules.", "anchors": ["src/client/encode.rs Encoder", "src/server/decode.rs decode", "src/server/encode.rs Encoder", "src/client/decode.rs decode"]}
{"id": "C93", "title": "CORS as a client sees it", "statement": "A tophat client sends a request with an origin to a tophat server whose endpoint begins with cors.validate(&req, &mut resp_wtr)?. If the origin is not allowed, or if the request is a preflight that is not granted, connect returns an empty response with status 400 and without access-control headers. If it is a preflight that is granted, connect returns an empty 200 with exactly the configured access-control headers and the origin. For any other request of an allowed origin, whatever response the application gives by changing the one that it has been given, connect returns it with the origin as the allowed one. (False of the code for the last part: if the application returns an error, the response that the client gets has not got the access-control headers.)", "quantifier": "every configuration, every request and application with headers within the limits of the other side (C92), every fragmentation and delay in both directions", "why_tests_cant": "All configurations, requests and applications, all schedules of both sides.", "anchors": ["src/server/cors.rs Cors::validate", "src/server/mod.rs accept_with_opts", "src/server/glitch.rs Glitch::into_inner_response", "src/client/mod.rs connect", "examples/cors.rs main"]}
{"id": "C94", "title": "The greeting of examples/basic.rs", "statement": "An endpoint awaits the body of the request with into_string and answers with a function of the text, as in examples/basic.rs. A tophat client that sends a text to it, and reads the answer with into_string, has the function of its text, however the bytes are cut up and delayed, also in the middle of a character. If what it sends is not UTF-8, connect returns a response with status 500, which is empty unless the server is verbose; then its body is the text of the error.", "quantifier": "every text, every function of texts whose values fit into memory, every sequence of bytes that is not UTF-8, every fragmentation and delay in both directions, every policy of growing buffers", "why_tests_cant": "All texts, all ways to cut them, all schedules of both sides.", "anchors": ["examples/basic.rs main", "src/body.rs Body::into_string", "src/server/mod.rs accept_with_opts", "src/server/glitch.rs Glitch", "src/client/mod.rs connect"]}
{"id": "C95", "title": "Other header fields change nothing", "statement": "What the server does with a request depends on its method, its target, its version and its fields Host, Content-Length, Transfer-Encoding and Expect only. Two requests that agree in these (the names without regard to case, the values exactly and in the same order) are both refused with the same status, or both end the connection, or both reach the endpoint with the same method, target and body length, and with the same interim response before; whatever other fields they have, on whatever connections, however cut up and delayed.", "quantifier": "every pair of requests of at most 16 fields that agree in the named parts, every pair of connections, endpoints and fragmentations", "why_tests_cant": "All pairs of requests, all other fields, all schedules.", "anchors": ["src/server/decode.rs decode", "src/server/mod.rs accept_with_opts"]}
{"id": "C96", "title": "A request to close the connection is honoured", "statement": "If a request says Connection: close, or the response to it does, then accept returns after that response, and no further request of the connection is served. (False of the code: the field is never looked at; the endpoint is called, and accept goes on with the next request.)", "quantifier": "every request with Connection: close, every endpoint, fragmentation and delay", "why_tests_cant": "All requests and schedules.", "anchors": ["src/server/decode.rs decode", "src/server/mod.rs accept_with_opts"]}
{"id": "C97", "title": "A client can use one connection for many requests", "statement": "A tophat client makes any number of requests on handles of one connection to a tophat server, one after the other: it calls connect, reads the body of the response with into_bytes, and goes on. The endpoint reads the bodies and answers with responses of declared length. Then the client gets, for each of its requests, the answer of the application to that request, with status, headers and body, in however many packets and with whatever pauses each request and each response comes; nothing is lost or mixed up between them; and when the client closes the connection, accept returns Ok.", "quantifier": "every number and sequence of requests and responses within the limits of the other side (C92), every fragmentation and delay of each of them in both directions, every policy of growing buffers", "why_tests_cant": "All sequences of requests of any length, all schedules of both sides.", "anchors": ["src/client/mod.rs connect", "src/client/decode.rs decode", "src/body.rs Body::into_bytes", "src/server/mod.rs accept_with_opts", "src/server/response_writer.rs ResponseWriter::send"]}
{"id": "C98", "title": "Streamed responses do not disturb what follows on the connection", "statement": "A tophat client makes requests one after the other on one connection to a tophat server, as in C97, but the endpoint streams some of its answers, that is, it does not declare their lengths. Then the client gets the body of each of the answers, streamed or not, and those that are not streamed with their status and headers, also behind one that is streamed. (False of the code: a body that comes in pieces and takes more than 4096 bytes on the wire can be cut off in the client without an error, and the rest of it is then taken for the next response.)", "quantifier": "every number and sequence of requests and responses within the limits of the other side (C92), every choice which are streamed, every fragmentation and delay of each of them in both directions", "why_tests_cant": "All sequences of requests of any length, all schedules of both sides.", "anchors": ["src/client/mod.rs connect", "src/client/decode.rs decode", "src/chunked/decoder.rs ChunkedDecoder", "src/server/encode.rs Encoder", "src/body.rs Body::into_bytes", "src/server/mod.rs accept_with_opts"]}
{"id": "C99", "title": "Middleware in front of a router", "statement": "An endpoint looks at the request, sets a header of the response if the request has an Origin, and then hands both to a router, as in examples/middleware.rs. A tophat client that asks for /x with GET, where x is any non-empty text without a slash, gets the text of the handler, with x as its parameter and with the data the router was given. To every other method or path of more than one segment it gets an empty 404. In both cases the response has Access-Control-Allow-Origin, with the configured value and once, if the client has sent an Origin, and does not have it otherwise.", "quantifier": "every name, every data, every value of the header, every request, every fragmentation and delay in both directions, every implementation of path-tree that keeps to its documentation", "why_tests_cant": "All names and requests, all schedules of both sides.", "anchors": ["examples/middleware.rs hello_user", "examples/middleware.rs Cors::simple_cors", "src/server/router.rs Router::route", "src/server/response_writer.rs ResponseWriter::insert_header", "src/server/mod.rs accept_with_opts", "src/client/mod.rs connect"]}
{"id": "C100", "title": "Logging in, being greeted, logging out", "statement": "With the server of examples/identity.rs, and any identity with a usable cookie name: a client that asks for /login/<name> gets an empty 200 response with exactly one cookie; if it sends that cookie (in first place) with a request for /, on any connection to a server with the same identity, it reads the text 'Hello <name>' until the time of issue plus the expiration time, and gets an empty 400 after that. Whoever asks for / without a cookie in first place that the server key vouches for and that has not expired gets an empty 400. /logout gives one cookie with Max-Age=0, which is worth nothing at / at any time. Every other request gets an empty 404 without a cookie.", "quantifier": "every identity, user name, time of login and time of request, headers that the client sends, other cookies after it, fragmentation in both directions, PathTree and JWT library within their laws", "why_tests_cant": "the time of the request, the other cookies and the way the bytes are cut up are not under the control of a test, and the claim about strangers is about every cookie that somebody could invent", "anchors": ["examples/identity.rs login_user", "examples/identity.rs logout_user", "examples/identity.rs hello_user", "src/server/identity.rs Identity::set_auth_token", "src/server/identity.rs Identity::authorized_user", "src/server/identity.rs Identity::forget", "src/server/router.rs Router::route", "src/server/mod.rs accept_with_opts", "src/client/mod.rs connect"]}
{"id": "C101", "title": "Errors of handlers behind a router", "statement": "If the handlers of a router whose patterns match a request return an error, with any middleware in front of the router, a tophat client gets the status of the error (500 if it has none), its headers and its message, and nothing of what was set in the ResponseWriter before. With the servers of examples/errors.rs and examples/errors_verbose.rs: if the database fails, the client gets a 500, with the context if one was given, and with the text of the database's error only if the server is verbose; an empty 400 if nothing is found; an empty 200 if nothing goes wrong; an empty 404 for every other request.", "quantifier": "every error, context and result of the database, every router, middleware and request, every fragmentation and delay in both directions, every implementation of path-tree that keeps to its documentation", "why_tests_cant": "All errors and requests, all schedules of both sides.", "anchors": ["examples/errors.rs database_error", "examples/errors.rs missing_data", "examples/errors_verbose.rs database_error_context", "src/server/glitch.rs GlitchExt::glitch_ctx", "src/server/glitch.rs Glitch::bad_request", "src/server/router.rs Router::route", "src/server/mod.rs accept_with_opts", "src/client/mod.rs connect"]}
