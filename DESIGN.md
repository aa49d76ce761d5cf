# Machine-checked model of rust-websocket

The Lean 4 project in `lean/` models `websockets-rs/rust-websocket` (`/repo`): frames, masking,
messages, the blocking and the async receivers and senders, the opening handshake on both sides, the
client builder, and the hand-over from the handshake to the connection. `properties.jsonl` lists the
properties, `MANIFEST.json` the theorems for each, `seeded/LOG.jsonl` the wrong programs the theorems
were tried on.

## Layout

* `Verif/Base.lean` – results, errors, byte strings.
* `Verif/Model/*` – the code, function by function; each definition cites file and lines in `/repo`
  and states its simplifications. Dependency models (standard library, hyper, tokio-codec, bytes,
  httparse, url) say so.
* `Verif/Spec/*` – small specifications written without model helpers: RFC 6455 frames in plain
  arithmetic, UTF-8 as the encoding of scalar values, an abstract reassembly machine, RFC 3174 SHA-1,
  RFC 4648 base64, header lines, comma lists.
* `Verif/Lemmas/*` – helper lemmas.
* `Verif/Props/*` – the property theorems (named `Cnn_…`), with `example`s showing that hypotheses
  can be met.

## How to read the log of wrong programs

Each line of `seeded/LOG.jsonl` is one edit of a model definition, made in a scratch copy and rebuilt.

* `failed` lists property theorems whose proof is no longer accepted. That is weaker than the statement
  being false: a proof can also break because its steps no longer fit. An empty list is the firm
  result: the theorems still hold although the claim is broken, so they were too weak.
* Attempts whose edited definition does not typecheck are not listed, since everything above such a
  definition fails for no reason of its own.
* `build` says so when a termination lemma beside the model broke. Theorems about the programs built
  on that lemma then fail through it.
* Claims marked with a word in brackets, such as `(harmless)` or `(the fix)`, are edits that need not
  break the property; they show what the theorems depend on.

## Conventions

* `Bytes = List UInt8`. Lengths are `Nat`; every truncating cast of the code is an explicit
  truncation. `usize` is 64 bit.
* Results are `ok | err | panic`: panicking paths of the code are values.
* Transports are scripts. A source is a list of events (a chunk of bytes, an I/O error); a sink is a
  list of answers (accept so many bytes, an I/O error). "Every segmentation / failure point" is a
  universal quantifier over scripts.
* Random masking keys and handshake keys are parameters, universally quantified.
* Allocation is modelled only where the code may panic on it (capacity overflow); running out of
  memory is not.
* Theorems with the suffix `_partial` prove less than the property; theorems called `_refuted…` prove
  that the property fails, by a concrete witness.

## Trusted base

* The Lean kernel (4.33.0). Every theorem depends on at most `propext`, `Classical.choice` and
  `Quot.sound`. No own axioms, no `sorry`, no `native_decide`, no `bv_decide`, no `implemented_by`.
* The model is a hand translation of the Rust source. The comments with file and line are the only
  link between the two.
* Dependency models: `std` (`Read::read_exact`, `take().read_to_end`, `Write::write_all`, `from_utf8`,
  `from_utf8_lossy`), byteorder, `bytes` 0.4 (`BytesMut` contents and capacity), tokio-codec 0.1
  (`FramedRead2`, `FramedWrite2`), futures 0.1 (`into_future`, `Sink::send`, awaited), hyper 0.10
  (`BufReader`, `h1::parse`, `Headers` as a map with case-insensitive names, header parsing helpers,
  `Upgrade`, `Connection`, the printer of header values, which writes line breaks as blanks), httparse, url 1.x (an already parsed URL; `port_or_known_default`),
  unicase.
* Parameters instead of models: base64's decoder (`B64`: any decoder that undoes the encoder;
  `B64.strict` is the RFC 4648 decoder used for concrete cases and exact characterisations), HTTP head
  parsers (`HeadParser`: any parser that understands formatted heads, takes all of them, and does not
  change its mind about a prefix; `reqParser`/`resParser` are concrete instances modelled on
  httparse), name resolution, TCP connect, TLS.

## What is modelled

| code | model |
|---|---|
| websocket-base/src/ws/util/mask.rs, header.rs, mod.rs | `Model/Mask`, `Model/Header`, `Model/Server` (`updateFramedCodec`) |
| websocket-base/src/dataframe.rs, ws/dataframe.rs | `Model/DataFrame` |
| websocket-base/src/message.rs, ws/message.rs | `Model/Message` |
| websocket-base/src/ws/receiver.rs, ws/sender.rs, src/receiver.rs, src/sender.rs | `Model/Receiver`, `Model/Client`, `Model/Send` |
| websocket-base/src/codec/ws.rs | `Model/Codec`, `Model/MsgCodec`, `Model/Framed`, `Model/Send` |
| websocket-base/src/header.rs, src/header/*.rs | `Model/Keys`, `Model/Headers` |
| websocket-base/src/result.rs | `Base` (`WsErr.ofIo`) |
| websocket-base/src/stream.rs | `Model/Client` (`Duplex.split`) |
| src/client/sync.rs | `Model/Client` |
| src/client/builder.rs, src/lib.rs (`upsert_header!`), src/result.rs | `Model/Builder`, `Model/Headers` |
| src/codec/http.rs | `Model/HttpCodec` |
| programs using the library (send, receive in any order) | `Model/Talk` |
| examples/autobahn-server.rs, autobahn-client.rs, server.rs, hyper.rs (loop), async-autobahn-server.rs, async-server.rs | `Model/Echo` |
| examples/client.rs | `Model/Chat` |
| examples/parallel-server.rs (runtime shutdown after a handler has ended is not followed) | `Model/Parallel` |
| two programs and the network between them | `Model/Dialogue` |
| src/server/sync.rs (iterator), src/server/async.rs (`incoming`), accept loops of the examples | `Model/Accept` |
| src/server/upgrade/*.rs, src/server/mod.rs, src/server/sync.rs, src/server/async.rs | `Model/Server` |
| examples/async-autobahn-client.rs, autobahn-client.rs | `Model/Cases`, `Model/Suite` |
| examples/async-client.rs after connecting | `Model/AsyncChat` |
| examples/ssl-client.rs after connecting | `Model/AsyncChat` |
| src/result.rs, websocket-base/src/result.rs, the error types of src/server/upgrade/mod.rs and src/codec/http.rs | `Model/Errors` |
| src/client/builder.rs, src/server/upgrade/{sync,async}.rs, the connecting and accepting calls while they wait | `Model/Meeting` |
| src/client/sync.rs (`reader_mut`, `writer_mut`, `shutdown*`), src/receiver.rs:60-75, src/sender.rs:45-60 | `Model/Raw` |
| examples/async-client.rs, examples/async-server.rs side by side | `Model/Tasks` |
| examples/client.rs:12-128, examples/async-client.rs:17-78, examples/ssl-client.rs:16-65 (`main`) | `Model/Mains` |
| examples/client.rs:12-128 and examples/server.rs:7-48, side by side, with the handshake | `Model/Whole` |
| examples/async-client.rs:31-78 and examples/async-server.rs:25-70, side by side, with the handshake | `Model/AsyncWhole` |
| programs that choose their calls; examples/server.rs:24-45 as one of them | `Model/Adaptive` |
| programs that choose their calls, from `connect_on` and `into_ws` on | `Model/Encounter` |
| a program against arbitrary bytes | `Model/Stranger` |
| programs that open their connection, against any peer | `Model/Doorstep` |
| examples/server.rs against any peer | `Model/Reception` |
| examples/server.rs with all its connections: the main thread and one thread for each | `Model/Crowd` |
| examples/async-autobahn-server.rs with all its connections: the main future, its panic, and one task for each | `Model/Hall` |
| examples/async-server.rs with all its connections: the main future and one task for each | `Model/Bureau` |
| examples/async-server.rs, one connection with anybody at the other end | `Model/Desk` |
| the receivers for any width of `usize`, with or without overflow checks | `Model/Word` |

## What is not modelled

* Wakers and executors (interleavings of threads, programs and network are modelled for C49/C50, C53, C54): an awaited future is polled again whenever the transport has an
  answer; a poll returning "not ready" consumes one event of the script.
* `peer_addr`, `local_addr`; `set_nonblocking` (a transport that answers "would block" is modelled). The rest of the raw access is in `Model/Raw`.
* hyper's `Item::typed`
  panic if one name is read as two types;
  hyper's over-allocation in `BufReader`; httparse reporting an illegal character before the head is complete.
* Error texts beyond those the properties mention; `Debug`/`Display` of errors.
* Machines with a `usize` of other than 64 bits, and overflow of sums of sizes, outside the receivers (for those: C87).

## Per property

| id | how it is expressed and proved |
|----|----|
| C01 | `write_header`, `Masker`, `write_to` against the arithmetic predicate `IsFrame`; any implementor of the frame trait, any transport |
| C02 | encoder and readers composed (blocking, blocking with limit, async); needs control frames to be final, witness shows why |
| C03 | reader soundness against `IsFrame`; for the async decoder an equivalence |
| C04 | no malformed header yields a frame on any transport; with the header complete the result is an error |
| C05 | `mask_data` and `Masker` equal pointwise xor with the cycled key, under any splitting of writes into a vector |
| C06 | mask bit of every returned frame; refusal text for legal frames of the wrong direction |
| C07 | size functions against the length written; `encodeInto` never fails for lack of room |
| C08 | exact refusal condition; sink unchanged |
| C09 | no `panic` in any execution of either receiver |
| C10 | limit decided from the header; bytes consumed when refused |
| C11 | `from_dataframes` equals an independent predicate |
| C12 | validator equals RFC 3629; delivered text is valid |
| C13 | conversions, and exactly which borrowed messages survive |
| C14 | composition of C02 and C11 for messages |
| C15, C16 | decision tables over all payloads |
| C17, C18 | induction over a schedule of fragments and control frames |
| C19 | one-step lemmas with exact error and unchanged fragments |
| C20 | invariant over any sequence of receive calls |
| C21 | false; what one call can add is proved, and by induction that the excess is at most one frame per ignored error (`Props/Growth.lean`) |
| C22, C23 | prefix stability of the decoder; C23 false near the message limit, where the bytes arriving one by one are shown to be the most lenient chunking, one chunk the strictest, with exact bounds for both (`Props/Chunking.lean`) |
| C24, C25, C26, C27 | refinement of both receivers to a parser and reassembly machine on byte strings |
| C28 | blocking: false inside a frame, where exactly the bytes read of the frame are shown to be lost (`Props/Cut.lean`, by a relation `Cuts` between reader and parser); async: for any decoder |
| C29 | wire content after every operation; blocking false after a failed write, with the wire described for every history (`Props/Cut.lean`) |
| C30 | simulation between a client and its halves under any interleaving |
| C31, C32 | base64 and SHA-1 as code, proved equal to the RFC specifications |
| C33, C34 | decision functions equal to predicates on header lines; first failing condition. `Props/Gate.lean`: `into_ws`, `connect_on` and their async forms report exactly that for a response or request arriving in any pieces, and whatever bytes arrive they hand out a connection only if a head in them passes |
| C35 | `Asks`/`Answers` on header lines; builder asks, server answers, client takes; combined for two blocking and two async ends |
| C36, C37, C38 | invariants over histories of builder / upgrade calls, read off the lines on the wire |
| C39 | limits of the resulting connection as function of the call history |
| C40 | calls into the network as function of URL and variant, for successful and failed attempts and every scheme; `C40_tls_or_nothing` (`Props/Pairs`): no variant that is to use TLS goes on without it |
| C41 | bytes not consumed by the head are exactly what the connection reads next |
| C42 | first blank line; independence of chunking, for requests and responses |
| C43, C44 | round trips through text |
| C45 | bytes on the wire for reject/accept/failed validation |
| C46 | finite table |
| C47 | `clientProgram` / `serverProgram` and their async versions run a list of sends and receives after the handshake; the two byte streams are tied together by `sd.input.flat = client wire`, `cd.input.flat = server wire`. The knot is cut by showing that each side writes its handshake and frames whatever it reads, then each side's end lemma applies. No statement about waiting |
| C48 | The loops of the echo examples over `recvMessage`/`Framed.poll` and the send path, then the whole connection handlers (`autobahnServer`, `exampleServer`, `asyncAutobahnServer`). Spec: `Spec.echoes`, `Spec.Says` (the bytes are frames, each carrying one whole message), `Hears` (what the receive calls yield). Induction along the loop with an invariant (`Fit`) under which no receive call panics and everything received can be sent. `Forward` (futures 0.1) is modelled; replies it had queued when the stream fails are not written: `C48_async_loses_replies` |
| C49 | `serverItems` (the iterator) and `Listening.step` (`incoming`: `buffer_unordered` with any number of pending handshakes, actions "arrive" and "poll i" in any order; TLS handshakes wait any number of polls). Spec: `Arrival.outcome` is the result of the connection alone, `arrivals`/`wakes` read a schedule. Invariant `Tidy`: everything that arrived is pending or out, once, and on its way to its own outcome; `Able` for progress |
| C50 | The accept loops of the example servers on top of C49 and C48 (`forEach`, `ignoreBad`, `filter_map(Result::ok)`). `ForEach` stops at the first stream error, so async-autobahn-server.rs (and parallel-server.rs) end at the first refused request: `C50_async_autobahn_refuted`. Here each call of `accept` returns; a peer that keeps a blocking server waiting is C86 |
| C51 | "At once" is expressed by scripts `s ++ t`: the answer is the same for every `t`, and `t` is left. `Rd.Local` is proved for every reading function; async: `next_local`, `Settles` (a decoder that asked for more asks again), `Awake` (what is buffered has been looked at, or will be at the next poll) as an invariant of polling |
| C52 | The same for `parseHead` and the HTTP codec. Refuted for the async server by departure 14: `C52_async_server_refuted` |
| C53 | `Chat` is the state of the three threads of examples/client.rs and the channel between them (`std::sync::mpsc`, unbounded, so a list); `Chat.run` takes any list of turns. Invariant `ChatInv` (order of the channel, what each thread has put in), `Spoken` (what is on the wire), progress lemmas for `C53_goodbye` and `C53_ends` (any fair schedule). `C53_with_server` ties it to `exampleServer` as C47 does |
| C54 | `Dialogue` is two `Party`s (a list of calls, a receiving half, a sending half, what has arrived) and `Happens` is one event: a program acts, or the network carries some bytes across. Which pairs of lists fit is `Matched`, defined in `Spec/Dialogue` on the lists alone (no bytes). Invariant `Together`: bytes under way + bytes buffered are exactly the unheard frames (`Audible`), for the blocking receiver and for `Framed` with its codec. `C54_safe` for every finite schedule, `C54_no_deadlock` for every fair infinite one, `C54_deadlock_is_the_programs` the converse, `C54_never_too_late` from every reachable state. `questions_answers`: a family of matched pairs of any length; `[.hear]`/`[.hear]` is shown not matched |
| C55 | `Spec/Heard.Carried` says what messages some bytes carry after some held fragments (frames on the wire by `IsFrame`, messages by `Delivers`, both independent of the receiver). `StepSound`: one turn of either loop consumes one such frame; lifted through `sLoop`/`pLoop`, `recvMany`, `Framed.poll`/`nextMany`. `C55_one_reading`: `Carried` determines the messages |
| C56 | `Client.run` over a list of `ClientOp`s; `Spec/Mixed.Mixed` assigns a stretch of the bytes to each receiving call. Uses C30's `restore_src` (the read buffer is transparent), C03 for single frames, C55 for messages, C01 for sends |
| C57 | `Spec/Blame` lists every cause with its error, on bytes, RFC frames and transport events only. `Follows`: a reader takes bytes exactly as the pure parser reads them, and fails with the transport's error only when the parser wants more. `parseFrame_fault`, `fromDataframes_fault`, `StepFault`: each error of a parser, of message assembly and of one turn of the loops has its cause; lifted through `sLoop`/`pLoop`, any number of calls and `Framed.next` |
| C58 | `Model/Builder` has a structured `Url` (host, port, user, password, path, query, fragment) and computes `Host` (hyper's formatting), `Basic` credentials and the resource. `Spec/Target`: decimal digits, what a `Host` value names given the default port, RFC 7617 value over the RFC base64, percent-encoding. `decimal_spec`, `build_auth`, `values_of_item`; the credentials are determined by the value (`C58_credentials_determined`); `C58_fragment_stays_home` covers the whole of `connect` |
| C59 | `reread_*`: printing a header map and reading the lines gives back lists, origin, version and key; `run_holds`/`accepted_holds`: what the upgrade calls leave in the map; `accept_headers`: the object keeps the map that was written. Joined with C35 over any segmentation, for the four pairs of blocking and async ends (`Props/Negotiate`, `Props/Pairs`). A seeded bug that gave the server's client object the request headers had survived before |
| C60 | `HandedBack`/`AsyncHandedBack` list the two ways a connection comes back; `C60_accept` and `C60_async_accept` go through every answer of listener and TLS; `C60_parsed`, `C41_parsed` for requests parsed by hyper's server. Seeded bugs that handed out the plain stream or dropped hyper's buffer had survived before |
| C61 | `Model/Parallel.lean` models examples/parallel-server.rs as a list of turns over the shared table, counter and channels; the functions called are those of the other modules. Four invariants over all runs (`Lemmas/Parallel.lean`): identifiers and places, transports, what was heard, where clients come from. `C61_heard` is stated with `Carried` of C55, `C61_wire` with the literal bytes of the greeting, which `C61_greeting` shows to be one unmasked text frame. |
| C62 | Partial. `C62_ends_only_for_cause_partial` and `C62_greets_everyone_partial` hold while the requests of one tick are taken before the next; `C62_one_at_a_time` says exactly what the receive handler does. `Lemmas/Lasting`, `Props/Lasting`: schedules without end (`Parallel.after`); `Steady` says that the handler keeps up and the clients send whole messages, `Executed` that every task gets its turn. `opened_ends` by induction on the streams ahead and on `Framed.measure` of the one being read; `greeted_again` follows a request from the tick through the two queues. The refutations are runs of the model from its initial state with real requests. See departures 31 and 32. |
| C63 | Partial. `Model/Cases.lean` models the loops from the connected client on, and `usize::from_str` (`addDigit`, `parseUsize`), which `C63_parse_exact` compares with place values (`Spec/Cases`). The loops are followed by induction over the receive calls (`case_count_loop`, `async_case_loop`), giving what was heard and the frames written; `C63_case_echoes` and `C63_count_of_traffic` restate this for traffic given as frames. See departure 33. |
| C64 | Partial. `Model/AsyncChat.lean` models the thread that reads lines, the filtered stream, `Select` and `Forward` (futures 0.1) as polls over two scripts, the peer's and the user's; a channel that stays open and silent makes the task wait forever (`none`). `Spec/AsyncChat` has the interleavings (`Merge`). Each poll is shown to move a list of messages from what is still to be heard or said to what was found (`poll_found`), and induction over the loop collects these (`chat_loop`). `C64_user_not_starved` and `C64_pong_not_starved` are about two consecutive polls. See departure 34. |
| C65 | Partial. The same loop as in C64 (`Model/AsyncChat.lean` is written over the closure of `filter_map`), with the closure of examples/ssl-client.rs (`pingOrClose`). `Lemmas/AsyncChat` proves the loop for every closure that answers as a function of the message (`Answering`). The stream below TLS is the byte stream that TLS delivers. See departure 35. |
| C66 | Partial. `Model/Errors.lean` models the five error types, their conversions, `Display` and the chain of `source`; texts and causes of `io::Error`, `hyper::Error`, `url::ParseError`, `native_tls::Error` and `Utf8Error` are arbitrary, and so is hyper's table of reason phrases. Proved by cases on the constructors; that a status can be read off its text uses that the digits of a number have no blank. See departure 36. |
| C67 | Proved. `Model/Meeting.lean` puts the connecting and accepting calls in front of the dialogue of C54. A call that waits is made again on what has arrived, with a mark behind it; it has returned if the mark is unread. `Lemmas/Opening.lean` shows for the four calls that they wait on every proper prefix of the other side's half and return on every extension with exactly the bytes behind it (`Opens`). `Lemmas/Meeting.lean` follows a meeting through its stages with a rank that never falls and that every fair schedule raises; the last stage is a dialogue behind the two heads (`step_behind`), so C54 applies. `C67_nobody_left_waiting` (`Lemmas/Gone`) is about any two programs in any state: a distance to the end that no step raises. |
| C68 | `Spec/Inject`: the lines of a text, which are determined by the text (`C68_lines_determined`). `Lemmas/Inject`: invariants of header maps entry by entry (`all_insert`, `all_extend`, `build_induct`) and a bound on the number of lines (`Bounded`: each of the library's names adds one at most). That values are written on one line is a fact about hyper's printer (`oneLine`), that every value goes through it, and that no text of the program is used as a name, is the crate's doing. Names are not checked: `C68_names_unprotected`. Plain programs can hold any conversation, for the four pairs of ends, and never get stuck (`Props/Pairs`, with C47 and C67). |
| C69 | Partial. `Props/Panic`. The heads are made with `format!`, which panics on a raw header line that is not UTF-8 (`Headers.writable`, `formatPanic`; typed values are `String`s); `TextHeaders`, `GivesText`, `TextCustom` (`Lemmas/Format`) say that there is none. The same hypotheses are part of C34, C35, C45, C47, C48, C59 and C67 (`SendableRequest`, `SendableResponse`), and in C68 of what a plain program is. See departure 40. Panics are values of the models (`Res.panic`, `Item.panic`, `SendRes.panic`, `AcceptRes.panic`). The decoders of heads have none (`httpDecoder_calm`), so the branches of `asyncIntoWs` and `finishHandshake` that fold a decoder's panic into an error are dead. `C69_client_never_panics` goes through `BufReader.restore` with the invariant of C09. The examples' own `unwrap`s are C48, C53 and C63. |
| C70 | `Props/Memory`, `Lemmas/Memory`: hyper's buffer has one of five sizes (`bufferSizes`), all bytes taken are in it or consumed. Async: `C70_refuted_async`, for every parser. |
| C71 | `Props/Memory`. A decoder that asks for more has fewer bytes than a header (14, `Within`) and the limit (`decode_waits`); `Framed.Slim` is kept by every poll. The queue: `start_send` refuses at 8 KiB (`startSend_short`). |
| C72 | `Spec/GoOn`: `Meets` (what one frame makes a call report and what is held afterwards), `Joins`, `Call`, `Calls`; the tape has frames masked either way. `Lemmas/GoOn` shows that both loops refine it (`StepRef`, `pLoop_call`). The errors are exact: reserved bits come before the opcode and UTF-8 (`Refused`). `C72_async_stuck` has no hypothesis on the transport. |
| C73 | `Model/Raw`: raw reads and writes, `read_to_end` (`toEndLoop` with any request sizes is `toEnd`), and shutting down; `Spec/Raw`: which bytes a call took and gave (`Took`, `Gave`, `InTurn`). `C73_write_pattern` holds for failing transports too, since a frame is built before it is written. `Src.Shut` and `Sink.shut` are the trusted effect of `shutdown(2)`. |
| C74 | `Model/Tight`: the dialogue of C54 in which a program is in a send while more lies in the network than it holds (`Party.free`), and bytes are taken only by a program in a receiving call (`Party.takes`). `Spec/Tight`: how many bytes have been said and not listened for (`unheard`), from the two lists alone. Proof: a tight step is a step of C54 or nothing, so the invariant `Together` holds; a program outside a send that can go on does (`goes_client`); a program inside one gets out of it while the other listens (`server_freed`); both inside: nothing moves (`jammed_tight`). Partly delivered frames count as unheard, so `C74_enough_room` is sufficient, not necessary. |
| C75 | `Model/Live`: `Duo`, the three threads of `Model/Chat` and the server's thread (`ServerThread.turn`), each direction a stream of which so many bytes have been carried; `Duo.allows` says who is inside a send or not in a receiving call. `Spec/Live`: what the server says back (`Message.back`, `screen`). Proof (`Lemmas/Live`): one direction is a `Pipe` (frames written, frames heard, the bytes between are the frames between); the invariant `DuoInv` says that every queue and log is determined by five counters; a step changes at most one of them or moves bytes (`Tally.Goes`), so either the pair (messages still to go, bytes still to go) for the first `j` lines gets smaller or the one who has to move (`Tally.mover`) stays the same (`goes_rank`), and when that one moves the pair gets smaller (`duo_step`). |
| C76 | Partial. `Model/Suite`: `suiteMain`, `asyncSuiteMain`; connection `i` meets `world i : Trip` (network, nonce, clone, masks), so nothing is assumed about what a server makes of earlier connections. `Spec/Suite`: `plan n`, and what each errand asks for (`Errand.Asks`, with the decimal digits of C58). `runCases_spec` by induction on the cases left; `asyncCase_no_panic` goes through the loop of C63 over any transport, so a case cannot end the async program. The `_served` theorems join the connections with C35, C48 and C63. `C76_where`: every connection, in any world, is to 127.0.0.1:9001 without TLS. Departures 41 and 42. |
| C77 | Partial. `Model/Tasks`: the typing thread, the client's task and the server's task move one round of their loops at a time, with the functions of `Model/AsyncChat` and `Model/Framed`; the network holds `Room` bytes each way. `Lemmas/Count` has the same system with lengths only, its invariant (`Sane`), a number that grows with every effective step (`pot`) and what holds when nobody can move (`moves`); `Lemmas/Tasks` shows that the programs keep step with the numbers (`tandem_step`), whatever bytes are in the buffers. `progress`: a bounded number that grows with every effective step means that something is reached, or both are done, or they are jammed. See departure 43. |
| C78 | `Model/Mains`: the three `main`s on a `Trip` (network, nonce, clone, masks; as in C76). `Spec/Mains`: the requests as text. `requestLines_key` splits the key off the head, so that the rest is one closed computation for any nonce. `C78_where` from `C40_every_call`; `C78_unconnected` from `connect_output` and C37; the `_served` theorems from `chat_reaches`, `C35_async_client_takes` and `asyncConnectOn_keeps`, then C53, C64 and C65. |
| C79 | `Model/Whole`: the client is inside `connect_insecure` (`Guest.dialling`) or in its loops (`Model/Chat`), the server inside `next`, between `next` and `accept`, or in the loop of `Model/Live`; the events, and who can move, are those of `Model/Live`. `Spec/Whole`: the answer as text. Proof (`Lemmas/Whole`): `Come` lists the five stages with a number that says how far they have come; no event makes it smaller, and the one that is due (`Helps`) makes it larger (`step_come`), so under a fair schedule the last stage is reached (`come_grows`), in which the state is one of C75 (`newcomer_talks`: the frames that came with the answer are the client's first input). The rest is C75 from such a state (`duo_safe`, `duo_answered`, `duo_ends`), and `Spelled` for the bytes. |
| C80 | Partial. `Model/AsyncWhole`: the client's future is in `send`, `into_future` or the closure of the example (`CallPhase`), the server's in `into_ws`, `send` or the closures (`DoorPhase`); what is typed, the sinks and the network are those of `Model/Tasks` from the start. Proof (`Lemmas/AsyncWhole`): `Led` lists the stages with a number that says how far they have come and who has to move; every state is that of C77 with the heads put before what was written (`Tandem.pre`), and the steps agree (`step_pre`). When the client's codec is exchanged it may have read frames already: the reading half then is that of C77 before a poll (`Primed`, `filter_resume`). The rest is C77 from such a state (`tandem_answered`, `tandem_over`, `tandem_stays`, `tandem_jams`, `many_jam`). See departure 43. |
| C81 | Proved. `Model/Adaptive`: a program is a function from the list of calls that have returned, with their results, to the next call (`Plan`); the calls and the network are those of `Model/Dialogue`. `Spec/Adaptive` says what can happen to two such programs without bytes, frames or schedules (`Next`, `Unfold`). Proof (`Lemmas/Adaptive`): at any time a program looks like one that has a list of calls, those it has made and the one it is in (`Actor.list`), and what the other hears does not depend on what is still to come (`Flow.relist`), so the steps are those of C54. `Unfold` is confluent because what a program hears next does not change when the other goes on (`Next.mono`, `agree_step`). |
| C82 | Proved. `Model/Encounter` puts `Model/Meeting` (handshake) before `Model/Adaptive` (programs that choose); no other function is modelled. Proof (`Lemmas/Encounter`): the stages of C67 — nothing sent, request under way, answer and first messages under way, both talking — with the pair of programs of C81 (`Both`) in the last two; while the client has not read the answer a stand-in takes its place in `Both`, and what has come for it is a beginning of the answer and the server's frames. |
| C83 | Proved. `Model/Stranger` puts a program of `Model/Adaptive` at one end of a connection and a list of what comes in (turns, bytes, the end) at the other. `Spec/Stranger` says what a program goes through that is told one thing after the other (`Heeds`). Proof (`Lemmas/Stranger`): a client is what it has decided so far and the bytes that wait (`Mind`); a receiving call that returns does what it would do with everything that will have come (`hear_any`, from C23 and C24), one that waits changes nothing of that; sends are independent of the receiving half. `stands_stop`: every message takes a byte. `loop_calm`: the async decoder counts at most 32 times what came. |
| C84 | Proved. `Model/Doorstep` lets the things of `Model/Stranger` happen to a program of `Model/Encounter`; no other function is modelled. The spec (`Spec/Doorstep`) rules on all bytes at once. Proof (`Lemmas/Doorstep`): what hyper's reader makes of a head depends on the first 2^19 bytes only (it asks the parser after each read, its buffer takes no more, and the parser's answers do not change once given), an async program decodes when there is a blank line; `Judges` says what the four calls have in common: they wait, refuse or open as the ruling on what has come says, and rulings do not change when more comes. Then the program is in one of three stages: opening, failed, or talking with the invariant of C83 for the bytes behind the head. Async programs are excluded where the code depends on cuts: bytes that begin with line ends (`C84_refuted_blank_lines`) and the message limit (C23). |
| C85 | Proved. `Model/Reception` lets the things of `Model/Stranger` happen to the server of `Model/Whole`; no other function is modelled. The spec (`Spec/Reception`) decides on all bytes at once (`reception`), and says which messages are answered (`Course`, `Exhausted`). Proof (`Lemmas/Reception`): the server is in one of four stages (`HStage`): reading, asked, serving, dropped; in `serving` what has been heard and said agrees with what is heard when all bytes behind the head are there, by C83's `Mind.hears`; a turn that changes nothing is reached because each message consumes input. Unmasked frames have one form only (`says_once`), which gives `C85_deterministic`. That the thread ends with a panic when the stream ends or something is no message is C48's finding; here it is a reason to hang up. |
| C86 | Partial: false as stated. `Model/Crowd` puts the connections of `Model/Reception` side by side: the main thread moves the connection in front and leaves it when `into_ws` has returned, the others move by themselves. The spec (`Spec/Crowd`) picks from everything that happened what one peer did (`doings`). Proof (`Lemmas/Crowd`): each connection is in a state that it reaches alone with turns inserted between its peer's doings (`Apart`), those behind the main thread's are all still reading, those before it are not; a dawdler is reading (`dawdler_front`). In each round either the main thread gets on or connection `i` has a turn (`rounds_go`). `C86_blocked` is departure 44. examples/hyper.rs:33-73 is the same server on another port, and C85 and C86 hold for it as they stand: it makes its greeting, Pongs and Closes with `Message` instead of `OwnedMessage`, which serialise equally (C13). |
| C87 | Partial: false for all limits. `Model/Word` writes both receivers down again for any width of `usize`, with every cast, sum and capacity explicit; on overflow a sum panics or wraps. `Spec/Word` says when limits leave room. Proof (`Lemmas/Word`): while the length held plus a frame stays below half of the address space no cast, sum or capacity makes a difference; a call that does not report a limit leaves no more than `W` behind, one that does at most a frame more (`loop_same`, `onFrame_same`), and that many are counted in the run. The same induction goes through the polls of the async stream (`nextMany_same`). `C87_refuted_crash` is departure 45. This also justifies the unbounded sums of all other models on 64 bits (`C87_room`). |
| C88 | Partial: false if an error follows. `Model/Desk` is the server of `Model/AsyncWhole` with anybody at the other end (`C88_same_server`: one poll of it is one poll there); `Spec/Desk` says on all bytes at once what is owed (`asyncReception`, byte for byte: `C88_answers`), with the stream read in one go. Proof (`Lemmas/Desk`): an invariant of everything that happens (`desk_endures`): in the handshake the buffer and what waits are the bytes that came; behind it what the decoder has read and what it still has to read give what the stream gives in one go (`Readout`, `desk_read`), and the wire, the sink's buffer and the message in hand are what is owed so far (`DeskEar`). `desk_progress` gives a well-founded measure that every poll with room lowers until the connection rests, so `desk_settles`. `C88_refuted_lost` is departure 46. `C88_greets_partial` (`Lemmas/Greeted`) bounds the loss: `send` ends only when the sink has been flushed, and nothing behind the request is read before, so what is dropped is behind the greeting. `C88_keeps` and `C88_final` (`Lemmas/Final`: the relation `Succeeds` between a connection and what becomes of it): what has been written stays written, and nothing is written to a peer that has been let go of; for all bytes. |
| C89 | Partial, for C88's reason only. `Model/Bureau` puts the connections of `Model/Desk` side by side: the main future polls any of the handshakes it has in hand (`buffer_unordered`), a task polls its own connection. The spec (`Spec/Bureau`) picks from everything that happened what one peer did (`visitsOf`). Proof (`Lemmas/Bureau`): each connection is in a state that it reaches alone with polls inserted between its peer's doings (`Lonely`); what happens in one round comes to at least one fruitful poll of connection `i` (`attention_tended`), by the main future if it is reading and by its task if not; each lowers C88's measure (`polls_lower`), so the connection comes to rest (`bureau_settles`). `C89_keeps` and `C89_final`: as for C88. |
| C90 | Partial: false if somebody sends something else. `Model/Hall` has the connections side by side as `Model/Bureau` has, with a flag for the panic of `block_on(f).unwrap()`; a connection is `Desk` with its own request handling (`Desk.admitted`, `Desk.tick`) and without the greeting. The spec (`Spec/Hall`) says on all bytes of a peer at once what is owed (`openReception`, byte for byte: `C90_answers`). Proof (`Lemmas/Hall`): the invariant of C88 without its greeting (`HallInv`), each connection alone (`HallAlone`), C89's measure as long as there is no panic (`hall_quiets`), and: there has been a panic if and only if the handshake of some connection has failed (`Accounted`). `C90_upgrades_partial` (`Lemmas/Upgraded`): the 101 is never lost. `C90_deterministic_partial`: as long as nobody ends it, the same bytes get the same answer whoever else is there. `C90_refuted_everybody` is departure 27 for whole runs. `C90_keeps` and `C90_final`: as for C88. |

## Where the code departs from the properties

1. Blocking `connect_on` passes `max_dataframe_size` for both limits (src/client/builder.rs:518):
   `C39_refuted_blocking_client`.
2. The client's `validate` looks at its own request's Connection header, not at the response's
   (src/client/builder.rs:927): `C34_refuted_connection`.
3. Extension parameters are split with `splitn(1, '=')`, so `name=value` is read as one name:
   `C43_refuted`.
4. The async codec forgets the per-frame overhead of held fragments when `decode` is entered again, so
   the size limit depends on chunking: `C23_refuted`. How far it can depend on it is described by
   `C23_extremes`, `C23_one_by_one`, `C23_certain_refusal`, `C23_within_limit` and
   `C23_at_once_refused`.
5. After a limit error the fragments stay in the buffer and more are appended: `C21_refuted_*`.
6. The final frame is not counted against the message limit and the comparison differs (`>=` blocking,
   `>` async): exact bounds in C20, agreement up to the first report and the difference itself in C25.
7. `Masker` advances its position by what it was given, not by what the endpoint took: corrupt over a
   short-writing endpoint (only a vector is used in the crate).
8. `write_header` lets fragmented control frames through; the reader refuses them.
9. `read_dataframe` without limit panics on a length above `isize::MAX`.
10. The blocking receiver loses bytes when the transport has no data inside a frame:
    `C28_refuted_blocking`.
11. `clear_header::<WebSocketKey>()` after `key()` gives a request without a key; `custom_headers`
    with key or version are overwritten unless set before: `C37_refuted_*`.
12. The server ignores a version header that is repeated, empty or not UTF-8, and accepts HTTP/2.0
    request lines: `C33_refuted_version`.
13. A one-byte Close payload is reported as "no data available"; close codes are not checked.
14. The HTTP codec drops what it split off when hyper wants more: `C42_refuted_blank_lines`. It then waits for
    the transport although a complete request may be buffered: `C52_async_server_refuted`.
15. At end of stream the blocking receiver reports the same error for a clean end and for a cut frame;
    the async one tells them apart.
16. `upsert_header!` does nothing if the header is there but does not parse: `C38_refuted_unreadable`.
17. A status code in a message that is not Close is written; a Close without code loses its payload
    when converted to an owned message.
18. `with_default_port` (url 1.x) asks for the scheme's port first, so the `secure` hint only matters
    for unknown schemes.
19. After a header or limit error the async decoder leaves its buffer as it is (it reports the same
    error again), the blocking reader has consumed the header.
20. A blocking send that fails half way leaves part of a frame on the wire; a later send continues
    behind it: `C29_refuted_after_failure`.
21. If `TcpStream::try_clone` fails in `split`, the client is lost.
22. Blocking `reject` and a failed blocking `accept` hand back the stream without the bytes already
    read ahead: `C41_refuted_reject`, `C41_refuted_failed_accept`.
23. The async server loses bytes after a head ended by bare LF, and on leading blank lines:
    `C41_refuted_bare_lf`, `C42_refuted_blank_lines`.
24. The async client tries only the first resolved address, the blocking one all of them.
25. The async echo examples return at once when the stream reports an error: replies already queued are
    not written and no Close is sent: `C48_async_loses_replies`.
26. examples/server.rs and examples/hyper.rs unwrap every received message, so a peer that goes away
    without a Close makes the connection's thread panic: `C48_server_panics_at_end`.
27. examples/async-autobahn-server.rs and examples/parallel-server.rs stop accepting (and panic) at the first
    connection whose handshake fails: `C50_async_autobahn_refuted`; what this means for everybody who is connected: `C90_refuted_everybody`. examples/async-server.rs filters such
    connections out and goes on.
28. examples/client.rs does not notice the end of its standard input: it sends empty text messages again and
    again: `C53_floods_after_eof`. And after the peer's Close it stays until the user types another line.
29. `wss://host:80/` (and `ws://host:443/`) dials the named port but sends `Host: host` without it (hyper
    0.10 drops 80 and 443 whatever the scheme): `C58_refuted_host_port`.
30. Credentials of the URL are put into `Authorization` as they stand in the URL, percent-encoded
    (src/client/builder.rs:853-863): `C58_refuted_encoded_credentials`; a password without a user name is dropped:
    `C58_refuted_password_only`.
31. examples/parallel-server.rs takes a client's sink out of its table while a send is under way and `expect`s it to be there when the next request comes. If the 100 ms timer fires again before the first request has been taken, two requests for one client are queued and the second panics: the server ends for everybody (`C62_refuted_busy`). With requests taken in time this cannot happen, not even after failed sends (`C62_ends_only_for_cause_partial`).
32. examples/parallel-server.rs reads its clients' streams one after another (`for_each` inside `for_each`), so while the first client keeps its connection open no other client is heard (`C62_one_at_a_time`, `C62_refuted_silent`); one malformed frame or one bad handshake ends the program (`C62_refuted_bad_message`, `C62_refuted_bad_handshake`).
33. `get_case_count` of examples/async-autobahn-client.rs takes the first message for the count. A server that sends a ping first makes it panic, while the blocking client answers the ping and goes on (`C63_async_count_refuted_ping`).
34. The comment in examples/async-client.rs says that the program responds to close and ping commands of the server, but the code answers pings only. A peer that sends a Close and ends its stream gets no answer, and the program waits until the user types `/close` (`C64_refuted_close_unanswered`, `C64_close_only_from_user`). At the end of its input the thread sends empty texts without end, as in the blocking client (`C64_typed`, compare `C53_floods_after_eof`).
35. examples/ssl-client.rs answers the peer's Close and then goes on sending what the user types, data frames included, which RFC 6455 section 5.5.1 forbids after a Close (`C65_refuted_data_after_close`; `C65_no_data_after_close_partial` while the peer says no Close).
36. `Display for WebSocketError` prints `ProtocolError` and `DataFrameError` without their messages, and there is no source, so a program that prints its errors does not show which rule the peer broke (`C66_refuted_receive_text`). A failed TLS handshake drops the error of the TLS library, and the end of the stream the I/O error (`C66_refuted_foreign_found`). Errors of the upper crate are printed with the heading `WebSocketError: ` twice, or with two headings.
37. The async HTTP codecs have no limit for a head (`split_off_http` looks for a blank line in whatever has come, src/codec/http.rs:65-70), so a stranger who never ends their request makes the async server hold as much as they send; the blocking server stops at hyper's 512 KiB (`C70_refuted_async`, `C70_blocking_server`).
38. Going on after an error is not safe with the blocking receiver: a frame above the limit or with a bad header is not skipped, and its payload is read as frames (`C72_refuted_smuggled`); with both receivers a fragment with the wrong mask is dropped and its message delivered without it (`C72_refuted_hole`). The async stream never gets past a bad header (`C72_async_stuck`).
39. `into_stream` is documented to return `(buffer, capacity, position)` but returns `(buffer, position, capacity)`; read as documented, the unread bytes are lost (`C73_refuted_into_stream`).
40. A raw header line that is not UTF-8, which hyper's `set_raw` accepts, makes `format!` panic in `connect_on`, `accept_with`, `reject_with` and their async forms (src/client/builder.rs:507, src/server/upgrade/mod.rs:137-144, src/codec/http.rs:77-81 and 175) instead of an error being returned: `C69_refuted`.
41. examples/autobahn-client.rs:24-29 unwraps the connection of each case: one refused connection ends the program, the remaining cases are not run and no reports are asked for: `C76_refuted_refused_case`. The async program prints the error and goes on.
42. examples/async-autobahn-client.rs:27 computes `case_count + 1`, which overflows for 18446744073709551615, a number `parse` accepts; the program panics before the first case (in a release build it runs none). examples/autobahn-client.rs:21 overflows at that case: `C76_refuted_largest`.
43. examples/async-client.rs:75 and examples/async-server.rs:66 use `forward`, which does not poll the stream while it holds an item that the sink does not take. `FramedWrite` takes none while 8192 bytes are waiting and the network takes no more. So when the user's input comes faster than the answers are carried back, both programs end up holding an item, with the network full both ways; then neither reads any more and both wait forever: `C77_can_get_stuck`, `C77_stuck_forever`, `C77_refuted_never_ends` (a finite input that ends with /close, for any room). After the end of its input the client sends empty lines without end, so that this can happen without any user.
44. `Server::accept` (src/server/sync.rs:230-253) and with it the iterator (src/server/sync.rs:264-270) reads the head of a connection to its end, without a time limit, before the next connection is accepted. So one peer that connects and sends nothing, or half a head, stops a server written like examples/server.rs for everybody who connects later, until it hangs up: `C86_blocked`, `C86_refuted_everybody`.
45. `Vec::with_capacity(header.len as usize)` (websocket-base/src/dataframe.rs:110) comes before any payload: on a machine of 32 bits, where a vector holds at most 2^31 - 1 bytes, a receiver with a frame limit of 2^31 or more, which `new_with_limits` allows (src/receiver.rs:95-100: not larger than `u32::MAX`), panics with "capacity overflow" on a header of ten bytes: `C87_refuted_crash`. The async codec waits for the payload before it allocates.
46. `forward` drops the sink when the stream fails (examples/async-server.rs:66), with what it has not written yet: if a message and bytes that are no message arrive together, the answer to the message is not written, and if they arrive one after the other it is: `C88_refuted_lost`.
