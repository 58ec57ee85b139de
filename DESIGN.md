# Formal model of hwchen/tophat in Lean 4 — design

The properties are in `properties.jsonl` (generated by `tools/gen_properties.py`), the theorems that
settle them in `MANIFEST.json` (generated by `tools/gen_manifest.py`), the seeded bugs and what they
broke in `seeded/`.

## 1. How to read the development

| directory | contents |
|-----------|----------|
| `lean/Verif/Model/` | the model of the code, function by function, with citations of `/repo`; and the model of what the code uses from other crates |
| `lean/Verif/Spec/` | specifications, independent of the model's helpers: grammars of RFC 7230 (chunked bodies, request and response heads), what a response head must look like, what a connection's conversation is, what "allowed" means for CORS, ... |
| `lean/Verif/Props/` | the property theorems `Cnn_...`, each with an English reading, and beside them examples that meet their hypotheses |
| `lean/Verif/Proofs/` | lemmas and invariants; not needed to understand the statements |
| `lean/Verif/Conformance/` | the repository's own tests, replayed in the model |

Names: `Cnn_refuted...` (and `C03_panics`, `C05_short_reader_hangs`, `C13_truncates`,
`C14_truncation_unreported`, `C19_lossy`, ...) are theorems that say that the property, as a user would
expect it, is *false* of the code; `..._partial` theorems give the part that holds. The full statement
of a property is its English statement in `properties.jsonl`.

## 2. Shape of the model

Rust is modelled by total, computable Lean functions.

* Bytes are `UInt8`; byte strings are `List UInt8`.
* `&mut self` becomes "returns the new value".
* Where the code writes into a `&mut [u8]` by computed indices (the encoders), the buffer is a list of
  fixed length and writes are bounds-checked: out of bounds is a **panic**. Where the code only says
  how many bytes it has put into the buffer, the model returns these bytes (`RPoll.data`).
* Results of Rust code are `Run α = ret a | panic | diverge`. Unbounded loops and recursion take a
  `fuel` argument; running out of fuel is `diverge` (or, for futures, "still running").
  Theorems show either that some fuel always suffices, or that *no* fuel suffices (a real hang).
* Futures are modelled at the level of `poll`: one call of a poll function is one atomic step;
  `Poll::Pending` is an explicit result. `async` functions are state machines (`DecFut`, `copyGo`,
  `acceptStep`) or loops over polls that go on when they are woken.
* Nondeterminism of the environment (fragmentation, `Pending`, errors, the timer, the clock, the
  contents of recycled buffers, the order of a `HashSet`, the growth of a `Vec`) is an input over which the
  theorems quantify. Readers are *any* type with a `pollRead`/`pollFill` that obeys the `AsyncRead`
  contract (`LawfulRead`, `LawfulBufRead`); `Script` - a finite list of `data bs | pending | err e`
  - is the instance used for concrete examples. Writers are scripts of `accept n | pending | err e`.
* Endpoints are arbitrary programs (`Prog`): they may read the body any number of times with any buffer
  sizes, depending on what they got, send a response, go on reading, and end with `Ok` or with a `Glitch`.
  They may also give up sending (`sendFor`: the future of `send` is dropped, as by a timeout) between any two
  iterations of the copy loop, and then end with a `Glitch`. The pipes of C86 (`Model/Duplex.lean`) leave that out.
  The types ensure what the Rust types ensure: `Ok(ResponseWritten)` needs a successful `send`, and `send`
  consumes the writer.

## 3. Trusted base

* **Lean's kernel**. Axioms: of the 200+ theorems in `MANIFEST.json`, every one depends on a subset of
  `propext`, `Classical.choice`, `Quot.sound` (checked with `#print axioms`). No axioms of our own, no
  `sorry`/`admit`, no `native_decide`, no `bv_decide`, no `implemented_by`/`unsafe`. `decide +kernel`
  (evaluation by the kernel) is used for concrete examples and witnesses.
* **The model**. Every definition cites the lines of `/repo` that it models and says what it
  simplifies. The code was read, never run (no dependencies in the sandbox). As evidence that the model
  does what the code does, all the tests of the repository (23 in `tests/`, 6 in `src/`) are replayed in `lean/Verif/Conformance/`,
  with the same bytes, the same mock transport and the same expected bytes, down to the number of writes and to
  the sizes of the chunks. One test is marked `#[ignore]` in the repository since the code fails it; so does the model.
  No property rests on these examples.
* **The specifications** in `lean/Verif/Spec/` and the statements in `lean/Verif/Props/`.
* **Dependencies**, whose sources are not in `/repo` (there is no Cargo.lock either; versions are those of
  `Cargo.toml`). Modelled from their documentation and from knowledge of their source:

| crate | what is modelled or assumed |
|-------|------------------------------|
| `httparse` 1.3.4 | `Request::parse`, `Response::parse`, `parse_headers`, `parse_chunk_size`: byte classes, line ends (also bare LF), header limits; the SIMD fast paths are not modelled (they skip what the loops skip) |
| `http` 0.2.2 | `HeaderMap` (insert, append, get, iteration by first insertion of a name), `HeaderName`/`HeaderValue` byte classes, `StatusCode` range and reason phrases (`Display`), `Method`; parsing of `Uri` is a parameter (`Env.uriOk`), `Uri::path()` is empty, `*`, or starts with `/` |
| `futures-lite` 1.11.3 | `BufReader` (8192 bytes, bypass for large reads), `Take`, `io::copy` (8192-byte buffer, one flush at the end), `read_until`, `read_to_end` (reserve 32, resize to capacity), `read_to_string` (UTF-8 check at the end) |
| `std` | `parse::<usize>` (accepts a leading `+`), integer formatting, `Vec`/`String` growth (parameter `grow` with `GrowOk`), `String::with_capacity` panics above `isize::MAX`, `HashSet` order (parameter), `String::from_utf8` |
| `futures-util` 0.3.8 | `IntoAsyncRead` (`TryStreamExt::into_async_read`), used by `set_sse`: a state machine over the results of polling the stream |
| `byte-pool` 0.2.2 | blocks have the size asked for and *arbitrary old contents* (`Pool`), `realloc` keeps the contents |
| `async-channel` 1.5.1 | `bounded(1)`: `send` waits if the buffer is full, `recv` waits until a value is there or all senders are dropped |
| `futures-timer` | whether the timer has fired at a poll is an arbitrary list of booleans (`Conn.clock`) |
| `path-tree` 0.1.12 | structure `PathTree` of laws: what is found matches, and if a registered pattern matches (with non-empty captures), something is found; `lastMatch` is an instance |
| `type-map` | finite map from types to values |
| `cookie` 0.14.3, `headers` 0.3.2 | formatting and parsing that is used (`Set-Cookie`, `Cookie`, comma-separated lists joined with ", ") |
| `jsonwebtoken` 7.2.0 | structure `JwtLib` of laws: what was encoded with a key verifies with this key and gives the claims; encoded tokens consist of base64url bytes and dots; expired iff `exp < now`; the issuer is not checked; `toyJwt` is an instance. Unforgeability is a hypothesis of `C47_only_issued` |
| `time` 0.2.23, `httpdate` | the text of the date is a parameter (`Env.now`), as is the clock |

### 3.1 What is modelled of `/repo/src`

| file | modelled | not modelled |
|------|----------|--------------|
| `chunked/encoder.rs` | all | logging |
| `chunked/decoder.rs` | all, including the buffer, the window, reallocation and the trailer channel | `Debug` impls, tests |
| `server/encode.rs` | all | logging |
| `server/decode.rs` | all | `Display` of errors, tests |
| `server/mod.rs` | `accept`, `accept_with_opts`, options, `InnerResponse::send` | thread-safety bounds |
| `server/response_writer.rs` | all operations of `ResponseWriter` | generic conversions (`Into`) are taken as already done; boxing of streams |
| `server/glitch.rs` | all | the macro arm `glitch_code!(code)`, which does not compile |
| `server/error.rs`, `client/error.rs` | the error cases, `Display` and `source` | texts of the errors of std and of libraries (parameters) |
| `server/router.rs` | building, routing, data and params | boxing of futures, `Arc` |
| `server/cors.rs` | all | |
| `server/identity.rs` | all | `Display` of errors |
| `client/*` | all | |
| `body.rs`, `trailers.rs`, `util.rs` | all | `AsyncSeek`-like parts of the standard `Cursor` |
| `timeout.rs` | `TimeoutFuture::poll` | the length of real time |
| `examples/*.rs` | the endpoints of `basic`, `cors`, `errors`, `errors_verbose`, `identity`, `middleware`, `routing` and of the server-sent events, as parameters of the theorems about them | executors, sockets, logging; the examples with databases |

### 3.2 Simplifications that matter

* A connection is a read half and a write half; clones of the connection are the same socket. When the
  code drops a `BufReader`, the bytes buffered in it are lost, in the model as in the code.
* An endpoint's own time, locks and tasks are not modelled: an endpoint is a sequence of reads and one send.
  Endpoints that give the body to another task, beyond their own return, are modelled in `Model/Shared.lean` (C87).
* One poll is atomic. Wakers are not objects of the model: C73 says that whatever returns `Pending` has itself just
  been answered with `Pending` by what it waits for, which by the contract of `poll` will wake the task.
* `usize` is 64 bits. Sums that overflow panic in debug builds (and are modelled as panics where they can occur:
  `C05_overflow_refuted`).
* Memory is unbounded, except where the property is about memory (C64) or capacity (C66).
* One connection is modelled at a time. Connections share only the pool of recycled buffers, whose contents are
  arbitrary in every theorem.

## 4. Properties: what is modelled and how it is proved

| id | modelled | proof |
|----|----------|-------|
| C01–C03 | `ChunkedEncoder` line by line over an arbitrary lawful buffered reader; RFC 7230 chunk grammar as separate spec | invariant over polls (emitted bytes = frames of the consumed prefix), induction over the poll list; exact panic condition; witnesses for buffers of 3 and 4 bytes and for the 8192-byte buffer of `io::copy` |
| C04, C05 | `server::Encoder` including its self-recursion | invariant over polls; divergence for every fuel if the reader is short |
| C06–C09 | `Encoder::start`, `HeaderMap` | the head as a separate function (`Spec/Head.lean`); equality with the bytes written for all schedules |
| C10, C11 | `io::copy` over the encoder with an arbitrary transport | invariant over the copy loop |
| C12–C18 | `ChunkedDecoder` line by line over an arbitrary lawful reader and pool | abstraction to configurations (`Dec.G`), step relation, invariants related to the grammar (`Carries`, `Body`, `Malformed`); the buffer budget `Within`; measures for liveness |
| C19 | encoder, transport, decoder | composition |
| C20–C27 | `server::decode` as a state machine over `BufReader` over an arbitrary reader, with the model of `httparse` | invariant of the future; heads characterised by a grammar; decisions by case analysis |
| C28–C33, C58, C61 | `accept_with_opts`, timeout, arbitrary endpoint program | one turn of the loop (`acceptStep`) specified for all executions, induction over turns; witnesses for the false ones |
| C34–C36 | `glitch.rs` | case analysis; C35 by a two-run argument (non-interference) for whole connections |
| C37, C38 | `ResponseWriter`, `HeaderMap` | induction over operation lists; `..._wire` theorems for the bytes on the connection |
| C39, C40 | `router.rs` over the laws of `PathTree` | induction over builder calls |
| C41–C45 | `cors.rs` | case analysis, induction over builder calls; `..._wire` for the connection |
| C46–C49, C62 | `identity.rs` over the laws of `JwtLib`; concrete cookie formatting and parsing | case analysis, round trip through `Set-Cookie`/`Cookie`; witnesses for C49 |
| C50, C51 | `client::Encoder`, `connect` | invariant over polls |
| C53, C54, C63, C64 | `client::decode` | invariant of the reading loop; decisions by case analysis |
| C52, C55, C65, C67 | client and server together | composition of the theorems of both sides |
| C56, C57, C66 | `Body` | `read_to_end` as a sequence of reads; the trailer channel as a state machine |
| C59 | decoder and pool | invariant up to the first error; witness after it |
| C60 | server, decoder | composition |
| C68 | encoder and `io::copy` over a reader that falls silent (`Spec/Stall.lean`) | invariant of the copy loop with the silence left (`Naps`, `copyGo_dozes`), work measure for the bound |
| C69 | `set_sse` with `IntoAsyncRead` | `IntoAsyncRead` is a lawful reader and falls silent with its stream; instances of C10, C37, C68 |
| C70 | server, decoder, client over a peer that falls silent (`Conn.silent`) | simulation: an execution that never needs the end of the transport is the same on every transport that agrees up to there (`Thru`); then: the reads of a body that has arrived never get there |
| C71 | server and encoder, against a recipient specified after RFC 7230 3.3.3 (`Spec/Recipient.lean`: `OneReply`, `Replies`) | every sent response is in the recipient's grammar (from C10: what `send` writes; header lines are field lines for every valid value; chunked messages are bodies), the grammar is unambiguous (the response parser is a function and accepts exactly the grammar), induction over the iterations; refutations: a body to HEAD, a body with 204 |
| C72 | two runs of the server (or of `connect`) whose pools have different contents (`Spec/Isolation.lean`: `SameButPool`) | a relation between the two decoders (the same window, the same sizes, the same state), kept by every poll that is not answered with an error; lifted through the buffered reader, the body, the endpoint and the loop to an equality of the two runs; refutation: an endpoint that reads on after an error |
| C73 | all readers, encoders and the decoding future, above arbitrary sources that note whether their last answer was `Pending` (`Spec/Wake.lean`: `Noted`) | one invariant for every layer: if the note was clear before a poll, then after it the note says whether the answer is `Pending`; induction over the loop of the decoder, the recursion of the encoder and the loop that reads the head |
| C74 | the decoder's block, for every content of the pool and every growth of the allocator (`Spec/Memory.lean`: `held`, `Unfinished`, `ShortLines`) | a set of blocks closed under what the loop does, for arbitrary histories; and an invariant of the transition system that the decoder refines: the block has grown only in front of an unfinished line |
| C75 | the transport's write half with the number of bytes it had accepted when it was last flushed (`Spec/Flush.lean`: `Flushed`, `seen`) | induction over the loop of `io::copy` (flushed exactly if it returned `Ok`), over `write_all` (never) and over the requests of a connection; with C68 for the refutation |
| C76 | `relayStep` (`Model/Relay.lean`): an iteration of the accept loop whose endpoint makes the request body the body of its response, so that decoder, encoder and copy loop run interleaved (`Spec/Relay.lean`: `PartOfBody`, `WholeBody`) | the decoder is not a lawful reader (its buffer and errors), so every decoder is shown to have a *record*: a script that answers the encoder's reads in the same way; the copy loop over the decoder and over its record is the same (simulation), and what the record says is C12/C13; fixed bodies directly, by C02/C10; C05 for the refutation |
| C77 | `decode`, `acceptStep`; `Spec/Framing.lean`: RFC 7230 section 3.3.3 for requests (`Framing`, with list syntax, and `OneRequest`), independent of `BodyLength` | for header fields that the server accepts the list elements are the field values; then case analysis on `Framing`; heads that end with CRLF CRLF are the server's heads because the parser is deterministic; bodies by C26 and C60; the exceptions are shown to be the only ones |
| C78 | `ClientError.display`, `BodyError.display` and `source` (`Model/Errors.lean`) on top of `connect`, `intoBytes`/`intoString` and Glitches; `Spec/Errors.lean`: `phaseOf` reads the phase off the text, `SaysWrong` says what a text claims about the received bytes | `clientSend_spec`, `clientHeadGo_spec` and the case analysis of `parseHead` and `finish`; prefixes of texts differ in their first byte |
| C79 | `gateway` (`Model/Gateway.lean`): `connect`, then `forward`, which is `passOn` of C76 on the response; `Spec/Gateway.lean`: `SameFields`, `Announced`, `PassedAs` | `clientDecode_spec`, `passOn_spec` and `oneReply_sent` of C71 composed; header maps that hold what came out of the parser are valid, and their values have no leading blanks |
| C80 | two runs of `acceptStep`, of `ClientDecode.decode`; `Spec/Case.lean`: `foldCase` is given by a table of the 26 letters, `Recased` relates lists of fields | `lower` is `foldCase` (256 cases); every clause of `Judged` and of `ReplyTo` is invariant under `Recased`; then as C20 |
| C81 | the states in which `DecFut.poll` can be suspended; `Spec/HeadMemory.lean`: `keptBytes`, `requestSize` | invariant `DecInv` of C20, and that the read buffer is empty whenever the future is pending; sizes by induction over the header map; refutations by induction over the size |
| C82 | nothing new: `clientSend`, `acceptStep` with `Router.endpoint`, `connect` | composition of C65 and C39; induction over the handler's program |
| C83 | the endpoint `greeting` (as in `examples/identity.rs`); `Exchange` bundles a request and a response over a connection | composition of C65 with C46 and C48 |
| C84 | nothing new: `sendResponse` with `setSse`, `ClientDecode.decode`, `polls`, over a connection that falls silent (`Stall.talk`) | `Proofs/DecoderCut.lean`: a decoder over a connection that ends after complete chunks has handed out all their data before it sees the end; the silent connection behaves alike until then (`Thru`); that no end is reported: two continuations with different data cannot be told apart during the silence (`Proofs/Lockstep.lean`, `Proofs/Later.lean`); composition with C69 |
| C85 | nothing new: `acceptGo`, clock, `Stall.talk` | the first pause at which the timer says that the time is over, by C33; refutation for every length of the silence by induction over the endpoint's reads |
| C86 | both sides at once, over two pipes of finite capacity (Model/Duplex.lean): each step is one poll of `decode`, of a read of the body, or one iteration of `io::copy` | an invariant that gives the bytes on the way and what is left to do, which every step keeps or lessens; if neither side can do anything the exchange is over; refutation: an invariant of the blocked pair, for every capacity |
| C87 | a task that holds the body of a request and the loop of `accept`, polled in any order (Model/Shared.lean); both have the same socket | the body that lies in the buffer of its reader never touches the socket (`Proofs/Pipelined.lean`), so the task and the server commute with each other; the server alone does what `accept` does |
| C88 | nothing new: `MsgBody.intoBytes` on the body that `decode` hands out | by the laws of the readers, as C56 and C57; the corresponding statements for chunked bodies (C14) by an invariant of the decoder in a message of which the end is missing (`Proofs/Truncated.lean`) |
| C89 | nothing new: `acceptStep`, then `ClientDecode.decode` and `MsgBody.intoBytes` on what was written | the specification of the copy loop with an error predicate that sees what has been sent (`Proofs/Copy.lean`, `encSpec_chunked`); complete chunks followed by `H` are malformed (`Proofs/Broken.lean`) |
| C90 | `Prog.sendFor`: the endpoint drops the future of `send` after any number of iterations of the copy loop (`Model/Accept.lean`); `Prog.Hurries` (`Spec/Endpoint.lean`) | the encoder's invariant holds after every iteration when the transport takes all (`Proofs/GiveUp.lean`), C10 and C11 otherwise; then as C89 |
| C91 | nothing new: `clientSend`, `acceptStep`, `connect`; `Glitch.Transmittable` (`Props/Failing.lean`) bounds the error's headers | `runProg_glitch` and C55; the size of a head is bounded by that of its fields (`Proofs/HeadSize.lean`) |
| C92 | nothing new; `Postable` and `Presentable` (`Props/RoundTrip.lean`, `Props/Limits.lean`) are what the other side of C52 and C55 sends without objection | a head is read in one way only, so one with too many fields is not read at all; `trimmed` as in C71 |
| C93 | `Cors.guard` of C41–C43 as the endpoint of a server that a client is connected to (`Exchange`, C91) | C41–C43 for the headers that arrive; the configured texts are valid header values (`cors_texts`), and fit into a head (`preflight_size`) |
| C94 | the endpoint of examples/basic.rs (`texting`, `Props/Hello.lean`) for any function of texts; `Prog.FailsTo` (`Spec/Fails.lean`) says that an endpoint returns an error for a body, however it is cut up | `readAll_answersTo`, `readAll_failsTo` (the loop of `into_string` ends with the body), C65, C91, and UTF-8 as in C68 |
| C95 | two runs of `acceptStep`, on two connections | the verdict (`Judged`) of two heads that agree in the heeded fields is the same (`judged_heeded`), and by C25/C34 the step does what the verdict says |
| C96 | `acceptStep`, `acceptGo`; requests whose fields ask to close | refuted for every such request by `served_inv`, and for two requests on one connection by evaluation |
| C97 | `clientTalks` (`Spec/Talk.lean`): `connect`, `into_bytes`, and again with what is left of the connection; `acceptGo` at the other end; the link is a list of packets for each request and response | induction over the requests; reading a head, and then a body to its end, takes nothing of the packets that follow (`Al`, `clientHeadGo_al`, `polls_al`), at the client as at the server; `C97_served` does not assume that the server's loop comes to an end: `acceptGo_total` |
| C98 | as C97, with a flag for each answer whether its length is declared | the same induction; reading a chunked body to its end takes nothing of the packets that follow (`Midway`, `polls_alC`); refuted by evaluation; `C98_complete_partial` assumes nothing to come to an end |
| C99 | `Model/Middleware.lean`: `Cors::simple_cors`, `hello_user` and the endpoint of examples/middleware.rs, for any value of the header and any data; the handlers get the response as the middleware has left it | C39 and C40 for the router, C65 for the way over the network |
| C100 | `Model/Login.lean`: the three handlers and the router of examples/identity.rs, for any `Identity`; where the code would panic (missing data or parameter, unusable cookie) the handlers return an empty error, and the theorems say that something else happens | C39 and C40 for the router (`behind_calls`), C46, C47 and C48 for the identity, C65 for the way over the network |
| C101 | `Model/ErrorsExample.lean`: the handlers and the router of examples/errors.rs and examples/errors_verbose.rs, for any result of the database | C39 for the router, C91 for the way of an error over the network |

Every property in the list is expressed in the model; none is marked `not_applicable`.

## 5. Where the code does not do what a user would expect

Each is a theorem about the model, with a concrete witness.

| property | what happens | theorem |
|----------|--------------|---------|
| C01 | the chunked encoder reports the end of the response too early if polled with a buffer of fewer than 7 bytes (not with `io::copy`) | `C01_tiny_buffer_refuted` |
| C03 | sending a chunked response panics when exactly 3 or 4 bytes are left in the copy buffer behind the head | `C03_refuted`, `C03_panics` |
| C05 | a body shorter than its declared length makes `send` recurse without end; declared lengths near `usize::MAX` overflow | `C05_short_reader_hangs`, `C05_refuted`, `C05_overflow_refuted` |
| C13, C19 | a valid chunked body can end early, without an error, if a size line straddles the end of the 4096-byte buffer | `C13_truncates`, `C19_lossy` |
| C13 | a valid size line or trailer section of more than 5120 bytes ends the body silently, because `Vec` reserves more than asked for and the decoder asks for the capacity instead of the length | `C13_long_line` |
| C14, C26, C88 | a connection that closes in the middle of a body looks like a normal end of the body | `C14_truncation_unreported`; wherever it is cut: `C14_refuted`, `C14_refuted_into_bytes`, `C14_refuted_client`; `C88_refuted`, `C88_refuted_client`; second clause of `C26_complete` |
| C89 | when the body of a response of declared length fails, the error response is sent behind what has been sent of it, and the client takes it for the rest of the body | `C89_refuted`; for every such body: `C89_refuted_declared` |
| C90 | when an endpoint gives up sending (a timeout) and returns an error, the error response is sent behind what has been sent: within a body of declared length the client takes it for the rest of the body; behind a complete response it answers nothing | `C90_refuted`, `C90_refuted_stray`; for every declared length: `C90_refuted_declared` |
| C92 | a request with more than 16 header fields is refused, a response head of 8 KiB or of more than 128 fields makes `connect` fail, and blanks at the beginning of a header value are lost; nothing keeps either side from sending them | `C92_refuted_many`, `C92_refuted_exchange`, `C92_refuted_large`, `C92_refuted_blanks` |
| C93 | an error that the application returns replaces the response into which `cors.validate` has put the access-control headers, so the client gets it without them (a browser hides such a response from the page); the comment in examples/middleware.rs expects headers that are set before the endpoint to be sent | `C93_refuted_error` |
| C96 | the server never looks at `Connection`: after a request that says `close`, and a response that says so, accept goes on to the next request (src/server/decode.rs:3 names the field in a comment only) | `C96_refuted`, `C96_refuted_next` |
| C98 | the second size line of a streamed body straddles the 4096th byte: the client ends the body there without an error, and reads the rest of it as the head of the next response | `C98_refuted` |
| C15 | a malformed chunked body is reported as complete if the malformed place straddles the end of the 4096-byte buffer | `C15_refuted` |
| C17 | a read of a chunked body into an empty buffer never returns | `C17_empty_buffer_spins` |
| C27 | an interim response is sent even for a request that is then refused for want of a Host | note at `C27_interim` |
| C30 | pipelined requests are lost: what was buffered behind a request is dropped | `C30_refuted`; for every endpoint: `C30_refuted_behind`, `C30_refuted_once` |
| C30 | an endpoint that reads a chunked body once more after its end takes the next request off the connection | `C30_refuted_reads_again` |
| C31 | the unread part of a body is taken for the next request (request smuggling) | `C31_refuted` |
| C32 | `accept` never returns if reads go on failing | `C32_refuted` |
| C38 | `set_text` does not set the status 200 that its documentation promises | `C38_set_text_refuted` |
| C39 | patterns without a leading slash and methods with an asterisk are routed differently from what they say | `C39_refuted_pattern`, `C39_refuted_method` |
| C46, C49 | the identity cookie is only found if it comes first in the `Cookie` header; a malformed cookie in front hides it | `C49_refuted`, `C49_refuted_malformed` |
| C51 | the client sends `content-length` twice if the application sets it; panics for a header value that is not text; sends bodies that do not match the declared length | `C51_refuted_twice`, `C51_refuted_panic`, `C51_refuted_body` |
| C53, C55 | `connect` returns status 200 and no headers for every chunked response; takes an interim response for the final one | `C53_refuted_chunked`, `C53_refuted_interim`, `C55_refuted_chunked` |
| C57 | `into_bytes_with_trailer` never returns for bodies that are not chunked, or are cut short | `C57_refuted_...` |
| C58 | two responses are written if the endpoint fails after `send`, or if sending fails half-way | `C58_refuted`, `C58_refuted_transport` |
| C59 | a read after an error can deliver bytes of another connection | `C59_refuted` |
| C63 | the client loses bodies that end with the connection | `C63_refuted_lost` |
| C64 | the client's limit for a response head is only looked at after complete lines | `C64_refuted` |
| C65 | a request with `expect: 100-continue` makes `connect` return the interim response | `C65_refuted_expect` |
| C66 | `into_string` panics for a declared length above `isize::MAX`; a peer can declare it | `C66_refuted` |
| C71 | a body that the endpoint sets is sent also in the answer to HEAD and with status 204, where the peer reads it as the next response | `C71_refuted_head`, `C71_refuted_no_content` |
| C72 | what an endpoint gets that reads a chunked body again after a read has failed depends on what other connections received (the window of the old block is applied to a block taken from the pool) | `C72_refuted` |
| C75 | behind a transport that buffers, the interim response is not sent before the body has been waited for (a deadlock with a client that waits for it), and a stream of events is not sent before it ends, because nothing is flushed | `C75_refuted_interim`, `C75_refuted_stream` |
| C76 | an endpoint that passes the request body on can be made to spin forever by a client that declares more bytes than it sends and closes; a chunked body that is cut off is passed on as a complete one | `C76_refuted_spin`, `C76_refuted_cut` |
| C79 | a gateway turns every chunked response, also an error, into 200 without any of its fields (`client/decode.rs` builds the chunked response from scratch); a response that ends with the connection loses its body; a cut off one makes the gateway spin or is passed on as complete | `C79_refuted_chunked`, `C79_refuted_close`, `C79_refuted_spin`, `C79_refuted_cut` |
| C80 | `Expect: 100-Continue` gets no interim response; in responses `Transfer-Encoding: Chunked` makes the client return an empty body | `C80_refuted_expect`, `C80_refuted_client` |
| C81 | heads of any size are collected and served, lines without end are collected without limit | `C81_refuted`, `C81_refuted_waiting` |
| C84 | after more than 4096 bytes of chunk framing the client may be told that the body has ended although the stream goes on, and items are lost | `C84_refuted` |
| C85 | a peer that is silent in the middle of a body, or that does not take the response, is not given up when the timeout is over | `C85_refuted`, `C85_refuted_writing` |
| C86 | an endpoint that answers before it has read the body: the client writes its whole request before it reads, so a long request and a long response block each other | `C86_refuted`, `C86_stuck` |
| C87 | a body that is given to another task: if a part of it comes later than the head, the server takes it for the next request, or the task gets bytes of the next request | `C87_refuted`, `C87_refuted_task` |
| C77 | requests with different Content-Lengths, with a plus sign in one, or with identity as the last transfer coding (also behind chunked) are served instead of refused; a head that ends with a bare LF swallows the bytes behind it, up to the next CRLF CRLF, for example the next request | `C77_refuted_lengths`, `C77_refuted_plus`, `C77_refuted_identity`, `C77_refuted_lf` |

Noticed on the way, not listed as properties: nested routers see the outer router's parameters only if they
have none of their own; the CORS middleware splits `access-control-request-headers` at commas without
trimming and refuses an empty list; a body read error in the same poll drops header bytes that the client
encoder has already copied; a response head that ends with LF CR LF is not recognised by the client;
the server has no limit for request heads; the timeout
can fire while the interim response is being written.

## 6. Seeded bugs

`tools/mutate.py` applies edits to the model in a scratch copy, rebuilds, and records in `seeded/LOG.jsonl` which
theorems fail. The edits are in `seeded/mutants/`. An edit under which everything still proves is a
weakness of a theorem, which is then tightened (field `tightened`).
`tools/automutate.py` makes such edits mechanically (numbers, comparisons, conditions, literals, dropped branches) in
every file of the model; what survives is looked at by hand.

## 7. What is missing

* The partial theorems are listed in `MANIFEST.json`, with the reason. Where a property is false of the code, the
  partial theorem has the condition under which it holds.
* C30, C31: positive results are for requests that arrive in packets of their own, and for bodies of declared
  length or chunked with a framing of at most 4096 bytes, which the endpoint reads to their end. Bodies of declared
  length that come in one packet with their head need not be read (C31_same_packet_partial); C87 has the same limit.
* C13, C15, C57, C60, C63: completeness of chunked bodies is proved for bodies whose framing fits into the
  decoder's buffer; beyond it the code is wrong for some fragmentations (C13_truncates) and right for others.
* Connections are modelled one at a time. They share nothing but the pool of buffers; C72 says how far its contents
  matter.
