#!/usr/bin/env python3
"""Writes /verif/properties.jsonl (one object per line)."""
import json, os
WB = "websocket-base/src/"
P = []
def p(id, title, statement, quantifier, why, anchors):
    P.append(dict(id=id, title=title, statement=statement, quantifier=quantifier,
                  why_tests_cant=why, anchors=anchors))

p("C01", "Every sent frame has the RFC 6455 wire layout",
  "Whenever sending a data frame succeeds, the bytes handed to the stream are exactly the RFC 6455 section 5.2 layout of that frame: FIN/RSV/opcode byte, MASK bit and shortest length form (7-bit, 16-bit or 64-bit big endian), masking key if masked, payload XORed with key[i mod 4].",
  "every frame (FIN, reserved bits, opcode, payload of any length), both masking modes, every masking key",
  "payload length, content and mask key range over unbounded domains; boundary lengths 125/126/65535/65536 interact with masking",
  [WB+"ws/util/header.rs:write_header", WB+"ws/dataframe.rs:DataFrame::write_to", WB+"ws/util/mask.rs:Masker"])
p("C02", "A sent frame is read back unchanged by the peer",
  "Reading the bytes of any successfully sent frame with the matching masking expectation returns the same frame and leaves every following byte unread. (Hypothesis the code forces: a non-final control frame can be sent but no reader accepts it.)",
  "every frame, key, masking mode, every trailing byte string, every limit that admits the payload; blocking reader and async decoder",
  "round trip over all lengths, keys and trailing data is an infinite family",
  [WB+"dataframe.rs:DataFrame::read_dataframe", WB+"dataframe.rs:read_dataframe_with_limit", WB+"codec/ws.rs:DataFrameCodec::decode"])
p("C03", "The frame reader accepts only RFC layouts",
  "If reading a frame succeeds, the consumed bytes are exactly the RFC 6455 layout of the returned frame (shortest length form, control frames final and at most 125 bytes), the mask bit agrees with the role, and nothing else was consumed.",
  "every byte string, both roles, every limit; blocking reader and async decoder",
  "the claim is about every possible input accepted, tests only sample accepted inputs",
  [WB+"ws/util/header.rs:read_header", WB+"dataframe.rs:read_dataframe_body", WB+"codec/ws.rs:DataFrameCodec::decode"])
p("C04", "Malformed headers are always refused",
  "Any input whose header uses a longer length form than needed, declares a control frame over 125 bytes, or declares a non-final control frame is refused with an error, whatever bytes follow, and never yields a frame.",
  "every two-byte header start, every extended length, every continuation of the input",
  "negative claim over all continuations",
  [WB+"ws/util/header.rs:read_header"])
p("C05", "Masking is an involution and is independent of write boundaries",
  "Masking twice with the same key restores the data, masking keeps the length, byte i is XORed with key[i mod 4], and writing a payload through the masking writer in any sequence of pieces gives the same bytes as masking it at once (as long as the endpoint accepts whole writes).",
  "every key, every payload, every split of the payload into writes",
  "splits and lengths are unbounded, and position is carried across writes",
  [WB+"ws/util/mask.rs:mask_data", WB+"ws/util/mask.rs:Masker"])
p("C06", "Mask direction is enforced",
  "A server-side reader refuses every unmasked frame and a client-side reader refuses every masked frame, whatever else the frame contains; the error names the violated expectation.",
  "every frame, both roles, blocking and async",
  "must hold for all frames and not only the sampled ones",
  [WB+"dataframe.rs:read_dataframe_body"])
p("C07", "Predicted size equals written size, and encoding never runs out of buffer",
  "message_size / frame_size equals the number of bytes written by serialize / write_to, and encoding into the async output buffer never fails for lack of room and appends exactly the serialised bytes, whatever the buffer's length and spare capacity.",
  "every message, every frame, both masking modes, every buffer content and spare capacity",
  "sizes are unbounded and three length forms times masking must all agree",
  [WB+"ws/dataframe.rs:frame_size", WB+"message.rs:message_size", WB+"codec/ws.rs:Encoder::encode"])
p("C08", "A refused send writes nothing",
  "Sending fails on the frame itself exactly when the opcode exceeds 15 or a control frame has more than 125 payload bytes; in that case not a single byte reaches the stream.",
  "every frame and message, every writer",
  "all sizes, opcodes and writers",
  [WB+"ws/util/header.rs:write_header", WB+"ws/dataframe.rs:write_to"])
p("C09", "Peer bytes cannot crash the library",
  "No byte sequence from the peer makes the blocking message receiver or the async codecs panic (opcode lookup, slicing, length addition, allocation size), with any configured limits.",
  "every byte string, segmentation, limits and receiver state",
  "absence of panics over all inputs",
  [WB+"codec/ws.rs:MessageCodec::decode", "src/receiver.rs:recv_message_dataframes", WB+"dataframe.rs:read_dataframe_with_limit", WB+"message.rs:from_dataframes"])
p("C10", "The data frame size limit is enforced before the payload is read",
  "With a data frame limit, a header that declares more is refused without consuming any payload byte, no returned frame exceeds the limit, and the configured limit is capped at 2^32-1.",
  "every input, every limit, blocking and async",
  "all lengths up to 2^64-1 and limits",
  [WB+"dataframe.rs:read_dataframe_with_limit", WB+"codec/ws.rs:DataFrameCodec::decode", "src/receiver.rs:new_with_limits"])
p("C11", "Message assembly is concatenation of fragments",
  "Forming a message from frames succeeds exactly when there is at least one frame, no reserved bit is set, all but the first are continuations, the first opcode is text, binary, close, ping or pong, and the payload is valid for that type; then the message has the type of the first frame and the concatenated payload.",
  "every list of frames",
  "lists and payloads are unbounded",
  [WB+"message.rs:from_dataframes"])
p("C12", "Text is exactly valid UTF-8",
  "Every Text message and every close reason delivered is valid UTF-8 (an encoding of a sequence of Unicode scalar values), and no valid UTF-8 text is refused, even if code points are split across fragments.",
  "every byte string, every fragmentation",
  "the UTF-8 language and fragment boundaries are infinite",
  [WB+"message.rs:from_dataframes", WB+"ws/util/mod.rs:bytes_to_string"])
p("C13", "Owned and borrowed messages convert without loss",
  "Converting an owned message to the borrowed form and back gives the same message, converting a message made by a public constructor to the owned form and back gives the same message, and both forms serialise to the same bytes. A hand-built message whose fields break the constructors' rules may lose data, never validity of text.",
  "every message of both kinds",
  "all payloads and types",
  [WB+"message.rs:From<Message> for OwnedMessage", WB+"message.rs:From<OwnedMessage> for Message"])
p("C14", "Messages survive the wire",
  "For every message a user can send, serialising it and reading it at the peer yields the same message.",
  "every message (text, binary, close with or without reason, ping, pong; control payload at most 125), every key, both directions",
  "unbounded payloads and keys",
  [WB+"message.rs:serialize", "src/receiver.rs:recv_message", WB+"codec/ws.rs:MessageCodec"])
p("C15", "Close payload rules",
  "A close frame with empty payload is delivered as a close without data, with one byte it is refused, with two or more bytes it is delivered with the big-endian status code and the remaining bytes as reason exactly if these are valid UTF-8. take_payload and CloseData::into_bytes produce the inverse.",
  "every close payload",
  "all payloads up to 125 bytes and all status codes",
  [WB+"message.rs:from_dataframes", WB+"message.rs:CloseData::into_bytes"])
p("C16", "Ping to pong conversion keeps data",
  "into_pong succeeds exactly on pings, keeps the payload and changes only the type; on any other message it fails and leaves it unchanged.",
  "every message",
  "all payloads and types",
  [WB+"message.rs:into_pong"])
p("C17", "Fragmented messages with interleaved control frames (blocking)",
  "If the peer sends a fragmented message with any number of control messages between fragments, successive recv_message calls return the control messages in order as they arrive, then the whole message, as long as the limits are respected.",
  "every fragmentation, every interleaving of control frames, every prior segmentation",
  "interleavings and fragment counts are unbounded",
  ["src/receiver.rs:recv_message_dataframes", WB+"ws/receiver.rs:recv_message"])
p("C18", "Fragmented messages with interleaved control frames (async)",
  "Same as C17 for the async message codec, for any arrival schedule.",
  "every fragmentation, interleaving and arrival schedule",
  "interleavings and schedules are unbounded",
  [WB+"codec/ws.rs:MessageCodec::decode"])
p("C19", "Illegal fragment sequences are refused and do not corrupt the message in progress",
  "A continuation frame with no message in progress and a new data frame inside an unfinished message are both answered with a protocol error; the frames collected so far are kept unchanged and no message is delivered from the offending frame.",
  "every receiver state, every offending frame, blocking and async",
  "all states and frames",
  ["src/receiver.rs:recv_message_dataframes", WB+"codec/ws.rs:MessageCodec::decode"])
p("C20", "Delivered messages are bounded by the limits",
  "As long as no limit error was reported, the data held for an unfinished message and the size of a delivered message are bounded by the configured limits, and the number of held frames by 2^20.",
  "every history of receives without a limit error, every input",
  "invariant over unbounded histories",
  ["src/receiver.rs:recv_message_dataframes", WB+"codec/ws.rs:MessageCodec::decode"])
p("C21", "After a limit error no more data is accumulated",
  "Once a receive reported that the message limit is exceeded, later receives do not let the held data grow further.",
  "every continuation of the history after a limit error",
  "history property",
  ["src/receiver.rs:recv_message_dataframes", WB+"codec/ws.rs:MessageCodec::decode"])
p("C22", "Async frame decoding is independent of arrival boundaries",
  "The frames (and error) the async frame decoder produces depend only on the byte stream, not on how it is cut into chunks; when it asks for more input it consumes nothing.",
  "every byte stream, every chunking, every limit",
  "number of chunkings is exponential",
  [WB+"codec/ws.rs:DataFrameCodec::decode"])
p("C23", "Async message decoding is independent of arrival boundaries",
  "The messages (and error) the async message codec produces depend only on the byte stream, not on how it is cut into chunks.",
  "every byte stream, every chunking, every limit",
  "number of chunkings is exponential",
  [WB+"codec/ws.rs:MessageCodec::decode"])
p("C24", "Blocking receive is independent of segmentation",
  "What the blocking receiver returns depends only on the byte stream, not on short reads or interrupted system calls.",
  "every byte stream, every segmentation with interruptions, every receiver state",
  "number of segmentations is exponential",
  ["src/receiver.rs:Receiver", WB+"ws/util/header.rs:read_header", WB+"dataframe.rs:read_dataframe_with_limit"])
p("C25", "Blocking and async endpoints agree",
  "On the same byte stream, the blocking receiver and the async codec deliver the same messages in the same order, while limits are not reached.",
  "every byte stream, both roles",
  "equivalence of two programs over all inputs",
  ["src/receiver.rs:recv_message_dataframes", WB+"codec/ws.rs:MessageCodec::decode"])
p("C26", "Ordered exactly-once delivery over an established connection",
  "If one side sends any list of messages, the other side receives exactly that list in order, with nothing lost, duplicated or merged, for every segmentation, in both directions, with either API.",
  "every list of messages, keys, segmentation, direction",
  "lists, payloads and segmentations are unbounded",
  ["src/client/sync.rs:Client", "src/sender.rs:Sender", "src/receiver.rs:Receiver", WB+"codec/ws.rs:MessageCodec"])
p("C27", "Truncated streams never yield a made-up message",
  "If the stream ends in the middle of a frame, the blocking receiver reports 'no data available' and the async stream reports an error; if it ends inside a fragmented message no message is delivered; a complete prefix is still delivered.",
  "every truncation point of every valid stream",
  "every cut point of every stream",
  [WB+"dataframe.rs:read_dataframe_with_limit", WB+"result.rs:From<io::Error>", WB+"codec/ws.rs:decode"])
p("C28", "Retrying after a would-block error resumes correctly",
  "If a receive fails because the transport has no data yet (non-blocking socket or timeout), calling it again later continues as if nothing happened.",
  "every point at which the transport reports would-block",
  "all interruption points",
  ["src/client/sync.rs:set_nonblocking", WB+"ws/util/header.rs:read_header", WB+"dataframe.rs:read_dataframe_with_limit", WB+"codec/ws.rs:decode"])
p("C29", "At every write failure the wire holds a prefix of the frames",
  "Whatever the transport does (short writes, interruptions, failure at any byte), what reaches it is a prefix of the exact encodings in order; a send that returns success has put the whole frame on the wire (blocking) or in the output queue (async), and the async queue is written in order.",
  "every sequence of messages, every write behaviour and failure point",
  "every crash point and write schedule",
  [WB+"ws/dataframe.rs:write_to", "src/sender.rs:Writer", WB+"codec/ws.rs:encode"])
p("C30", "Splitting a client loses nothing",
  "split() hands the reader every byte already buffered and the partially received message, so receives after split give the same results as without split, and reader and writer operations do not influence each other.",
  "every client state, every interleaving of reads and writes after split",
  "all states and interleavings",
  ["src/client/sync.rs:split", "src/receiver.rs:Reader", "src/sender.rs:Writer"])
p("C31", "Sec-WebSocket-Key round trip and length check",
  "The textual form of any 16-byte key is its base64 encoding, parses back to the same key, and no text that decodes to another length or is not base64 is accepted. Same for 20-byte accept values.",
  "every key, every text",
  "2^128 keys, all texts",
  [WB+"header.rs:WebSocketKey", WB+"header.rs:WebSocketAccept", "src/header/key.rs", "src/header/accept.rs"])
p("C32", "The accept value is base64(SHA-1(base64(key) ++ GUID))",
  "The accept value computed for a key is the RFC 6455 formula with RFC 3174 SHA-1 and the RFC GUID, always 20 bytes (28 characters), and client and server compute the same value.",
  "every key",
  "2^128 keys",
  [WB+"header.rs:WebSocketAccept::new"])
p("C33", "The server accepts exactly well-formed upgrade requests",
  "A request is accepted as an upgrade exactly when the method is GET, the HTTP version is 1.1 or later, the WebSocket version is 13 (or absent), a 16-byte key is present, Upgrade lists websocket and Connection lists upgrade (case-insensitively); otherwise the first failing condition is reported.",
  "every method, version and header set",
  "header sets are unbounded",
  ["src/server/upgrade/mod.rs:validate"])
p("C34", "The client accepts exactly valid upgrade responses",
  "A response is accepted exactly when the status is 101, Sec-WebSocket-Accept matches the key sent, Upgrade is websocket and the response's Connection is Upgrade; otherwise the right error (redirect, status, response) is reported.",
  "every response and builder state",
  "header sets are unbounded",
  ["src/client/builder.rs:validate"])
p("C35", "Client and server handshakes fit together",
  "The request built by any client builder that did not override required headers is accepted by the server, and the server's accept response, with any protocols, extensions and custom headers that are not handshake headers, is accepted by that client; after this the masking roles of both ends match.",
  "every builder configuration, key, server-side additions",
  "all configurations",
  ["src/client/builder.rs:build_request", "src/client/builder.rs:validate", "src/server/upgrade/mod.rs:validate", "src/server/upgrade/mod.rs:prepare_headers"])
p("C36", "The server response always carries the required headers",
  "Whatever protocols, extensions and custom headers are added, an accepted upgrade's response has status 101 and exactly one each of Sec-WebSocket-Accept (for the request's key), Connection: Upgrade and Upgrade: websocket; other custom headers are kept.",
  "every history of use_* calls and every custom header set",
  "all histories",
  ["src/server/upgrade/mod.rs:prepare_headers", "src/server/upgrade/mod.rs:use_protocol"])
p("C37", "Every client request carries the required headers",
  "Whatever builder methods are called, the request sent has Connection: Upgrade, Upgrade: websocket, a Sec-WebSocket-Version and a 16-byte Sec-WebSocket-Key: the user's if set by key()/version(), otherwise 13 and a fresh key.",
  "every sequence of builder calls",
  "all histories of calls",
  ["src/client/builder.rs:ClientBuilder", "src/client/builder.rs:build_request"])
p("C38", "Protocol and extension lists follow the call history",
  "The protocols (extensions) offered are exactly those added since the last clear, in call order.",
  "every sequence of builder calls",
  "all histories of calls",
  ["src/client/builder.rs:add_protocol", "src/client/builder.rs:add_protocols", "src/client/builder.rs:clear_protocols", "src/client/builder.rs:add_extension", "src/lib.rs:upsert_header"])
p("C39", "Configured limits reach the connection",
  "The data frame and message size limits configured on the builder (or given to accept_with_limits) are the ones enforced by the resulting connection.",
  "every pair of limits, blocking and async, client and server",
  "all values",
  ["src/client/builder.rs:connect_on", "src/client/builder.rs:async_connect_on", "src/server/upgrade/sync.rs:internal_accept_with_limits", "src/server/upgrade/async.rs:internal_accept_with_limits"])
p("C40", "Connection target and TLS choice follow the URL",
  "connect uses TLS exactly for wss and https URLs; the port is the explicit one or 443 for wss/https and 80 for ws/http; a URL without host is refused before any connection attempt.",
  "every URL, every connect variant",
  "all URLs",
  ["src/client/builder.rs:extract_host_port", "src/client/builder.rs:is_secure_url", "src/client/builder.rs:connect"])
p("C41", "No byte after the handshake is lost",
  "Bytes the peer sends right after its handshake head, even in the same segment, are the first bytes the websocket layer reads; on a failed upgrade the unread bytes are returned to the caller.",
  "every split of head and following bytes over segments; client and server, blocking and async",
  "all segmentations and payloads",
  ["src/server/upgrade/sync.rs:into_ws", "src/server/upgrade/async.rs:into_ws", "src/client/builder.rs:connect_on", WB+"ws/util/mod.rs:update_framed_codec"])
p("C42", "HTTP head splitting",
  "The async HTTP codec consumes exactly through the first blank line (CR LF CR LF), consumes nothing while it has not arrived, and its result does not depend on arrival boundaries.",
  "every byte stream and chunking",
  "all streams and chunkings",
  ["src/codec/http.rs:split_off_http", "src/codec/http.rs:decode"])
p("C43", "Extension header values round trip",
  "Formatting a list of extensions and parsing it back yields the same list.",
  "every list of extensions with legal names, parameters and values",
  "unbounded lists and strings",
  ["src/header/extensions.rs"])
p("C44", "Protocol header values round trip",
  "Formatting a list of protocol names and parsing it back yields the same list, for all names that are non-empty, contain no comma and have no surrounding whitespace; header splitting over several lines concatenates.",
  "every list of names",
  "unbounded lists and strings",
  ["src/header/protocol.rs"])
p("C45", "Rejecting answers 400 and never upgrades",
  "reject / reject_with write a 400 response with the given headers, never a 101, and hand back the stream; accept writes exactly one 101 response.",
  "every upgrade, every custom header set, every write failure",
  "all header sets and failures",
  ["src/server/upgrade/sync.rs:reject", "src/server/upgrade/async.rs:reject", "src/server/upgrade/mod.rs:send"])
p("C46", "Opcode table",
  "Opcode::new is defined exactly on 0..15 and is inverse to the numeric value; values 8..15 are exactly the control opcodes; message type predicates agree with the numeric opcode sent.",
  "every byte, every opcode, every message",
  "small enough to enumerate, but ties all other properties together; message predicates range over all messages",
  [WB+"dataframe.rs:Opcode", WB+"message.rs:is_control"])
p("C47", "A whole connection: two programs that connect hear each other",
  "When a client program and a server program of this library are joined by two byte streams, both handshakes succeed, every send succeeds, and each program hears exactly the messages the other one sent, in order, each once, and after them the end of the stream.",
  "every URL, builder history, key, server answer with legal header lines, every two lists of sends and receives, every cutting of either stream into pieces; blocking and async ends in all four combinations",
  "two unbounded programs, two unbounded streams and all segmentations; a failure may need one particular alignment of handshake and first frame",
  ["src/client/builder.rs:connect_on", "src/client/builder.rs:async_connect_on", "src/server/upgrade/sync.rs:into_ws", "src/server/upgrade/async.rs:into_ws", "src/client/sync.rs:send_message", "src/client/sync.rs:recv_message", WB+"codec/ws.rs"])
p("C48", "The echo programs answer everything they hear",
  "The echo programs in examples/ send back every text and binary message and answer every ping with its payload, in order, up to the first Close or the end of the stream, and then send exactly one Close; they never panic on what a peer sends. A client of this library connected to one of them hears the echo of what it says.",
  "every input script (legal or not, cut anyhow, with transport errors), every limit, every output that accepts bytes sooner or later; every client program for the round trip",
  "unbounded streams and segmentations; the loops interleave receiving, replying and buffering, and a lost reply needs a particular alignment of frames and segments",
  ["examples/autobahn-server.rs", "examples/autobahn-client.rs", "examples/server.rs", "examples/hyper.rs", "examples/async-autobahn-server.rs", "examples/async-server.rs"])
p("C49", "Handshakes of different connections do not concern each other",
  "A server's iterator (blocking) or stream (async) yields exactly one result for every connection, that result is determined by the connection's own bytes, and accepting goes on after any error: in whatever order connections arrive, wait and are polled, no connection is lost, yielded twice, or changed by another.",
  "every sequence of connections and listener or TLS errors, every interleaving of arrivals and polls",
  "the number of interleavings of many half-finished handshakes is unbounded",
  ["src/server/sync.rs:accept", "src/server/sync.rs:Iterator", "src/server/async.rs:incoming"])
p("C50", "The example servers go on serving whatever other clients do",
  "In every example echo server a client with a legal request gets all its answers, whatever the clients before, beside and after it send.",
  "every list of other connections, every schedule, every stream of the client in question",
  "unbounded numbers of clients, any of which may misbehave in any way",
  ["examples/autobahn-server.rs", "examples/server.rs", "examples/async-server.rs", "examples/async-autobahn-server.rs"])
p("C51", "Nothing waits for more than it needs: messages",
  "A receive call answers as soon as the bytes that decide its answer have arrived, without waiting for or consuming anything that comes later; all messages whose frames have arrived are delivered whatever the transport does next. An async stream or sink reports not ready only when the transport has just done so, and then no complete frame is buffered (no lost wakeup).",
  "every receiver or stream state, every script of transport events before and after, every message sequence, every number of earlier polls",
  "a lost wakeup or an extra read shows only when a frame boundary, a segment boundary and a pause of the peer coincide; tests with more data behind do not notice",
  [WB+"dataframe.rs:read_dataframe_with_limit", "src/receiver.rs:recv_message_dataframes", WB+"codec/ws.rs:decode"])
p("C52", "Nothing waits for more than it needs: handshakes",
  "A server answers a request, and a client takes a response, as soon as the head has arrived in full, whatever the transport does afterwards.",
  "every transport script before and after, every request and response",
  "same as C51; and peers normally pause exactly after the head, so a needless wait is a deadlock",
  ["src/server/upgrade/sync.rs:into_ws", "src/server/upgrade/async.rs:into_ws", "src/client/builder.rs:connect_on", "src/client/builder.rs:async_connect_on", "src/codec/http.rs:decode"])
p("C53", "The chat client keeps its threads' messages in order and says goodbye once",
  "In examples/client.rs the messages sent are those the user's lines and the peer's pings ask for, each thread's in its order, none invented, none lost while the sending thread runs; the last message sent is a Close and it is the only one; the program ends under every fair schedule, and connected to examples/server.rs it hears its greeting, its own messages back, and a Close.",
  "every interleaving of the three threads, every sequence of input lines, every peer input cut in any way, every transport",
  "the number of interleavings of three threads grows exponentially; a test sees the few that its machine happens to produce",
  ["examples/client.rs:main", "examples/server.rs:main", "src/client/sync.rs:split"])
p("C54", "Two connected programs never deadlock unless their calls do",
  "After the handshake a client program and a server program, each a list of send and receive calls run on the library (blocking or async on either side), come to their ends under every fair schedule and every carriage of bytes by the network, provided their lists can be carried out at all (every receive finds a message the other has already been able to send, or the other's end); at every moment of every schedule each has heard exactly the prefix of what the other has said that it listened for. Conversely no schedule completes lists that cannot be carried out.",
  "all pairs of lists of calls, all messages within the limits, all interleavings of the two programs and the network, all cuts of the bytes, blocking and async ends",
  "interleavings of two programs and a network are unbounded and a deadlock shows only as a test that does not finish, on the one schedule in many that has it",
  ["src/receiver.rs:recv_message_dataframes", "src/sender.rs:send_message", "websocket-base/src/codec/ws.rs:decode"])
p("C55", "Nothing is delivered that the bytes did not carry",
  "Every message a receive call returns, and every message an async stream yields, is one that the bytes taken from the transport carry: those bytes are RFC 6455 frames within the frame limit, and the message is the assembly of its fragments in order (control frames in between set aside), with nothing invented, duplicated, reordered or cut. Bytes have only one such reading.",
  "every receiver and stream state, every script of transport events including errors and truncation, every number of calls, every limit",
  "the claim is about all inputs for which the receiver says yes, including hostile ones; a test checks the inputs it thought of",
  ["src/receiver.rs:recv_message_dataframes", "websocket-base/src/codec/ws.rs:decode", "websocket-base/src/message.rs:from_dataframes"])
p("C56", "Receiving frames, receiving messages and sending can be mixed",
  "A program may call recv_message, recv_dataframe and the sending functions of a client in any order. As long as the calls succeed, the bytes received fall into consecutive stretches belonging to the receiving calls in order; a frame taken singly neither joins nor disturbs the message being assembled; what is not used remains for later calls; and the bytes sent are the frames of the sending calls in order.",
  "every client state (buffered bytes, held fragments, half-used read buffer), every list of calls, every transport",
  "the read buffer and the held fragments are two hidden states shared by the calls; the number of orders of calls grows exponentially",
  ["src/client/sync.rs:recv_dataframe", "src/client/sync.rs:recv_message", "src/client/sync.rs:send_dataframe", "src/receiver.rs:recv_message_dataframes"])
p("C57", "Every error of a receive call has the cause it names",
  "If a blocking receive call or an async stream reports an error, then either the transport failed or ended inside a frame and the error names that, or the bytes the peer sent contain a fault (non-minimal length, overlong or fragmented control frame, frame above the limit, wrong masking, continuation without a start, interrupted fragmentation, too many or too long fragments, reserved bits, unknown opcode, invalid UTF-8, one-byte Close payload) at the stated place and the error is the one for that fault. Legal bytes on a working transport never cause an error.",
  "every script of transport events, every number and outcome of earlier calls, every limit, both stacks",
  "false alarms and misnamed errors are a matter of all legal inputs in all states; a test only sees the errors it provokes",
  ["websocket-base/src/dataframe.rs:read_dataframe_with_limit", "websocket-base/src/header.rs:read_header", "src/receiver.rs:recv_message_dataframes", "websocket-base/src/codec/ws.rs:decode", "websocket-base/src/message.rs:from_dataframes"])
p("C58", "The request names the resource, the host and the credentials of the URL",
  "The request line asks for exactly path and query of the URL; the fragment influences nothing; there is one Host line naming the host and the port the URL designates; a user name in the URL gives exactly one Authorization line that carries this user and password (RFC 7617), and without credentials in the URL there is none unless the program sets one.",
  "every URL (all fields free), every sequence of builder calls, every key",
  "the combinations of scheme, port, credentials and builder calls are unbounded; the repository tests one URL with credentials",
  ["src/client/builder.rs:build_request", "src/client/builder.rs:extract_host_port"])
p("C59", "Both ends of a connection agree on what was negotiated",
  "The server program sees in the request exactly the key, version, resource, origin, protocols and extensions the client program asked for; the headers a server's client object shows are exactly the lines it put on the wire; and the protocol and extension lists shown by the client object and by the server's client object after the handshake are the same, namely what the server program chose, in order.",
  "every URL, every sequence of builder calls, every sequence of upgrade calls, every set of custom headers that does not touch the lists, every segmentation of both heads, blocking and async ends",
  "the two ends are two programs with arbitrary call histories; a test fixes both",
  ["src/client/sync.rs:protocols", "src/client/sync.rs:extensions", "src/server/upgrade/mod.rs:protocols", "src/server/upgrade/mod.rs:origin", "src/server/upgrade/sync.rs:internal_accept_with_limits", "src/server/upgrade/async.rs:internal_accept_with_limits"])
p("C60", "A connection that is not upgraded is handed back whole",
  "If a server cannot upgrade a connection, the InvalidConnection says why, contains the stream with nothing written on it, the parsed request if there was one, and all bytes behind it (all bytes at all if there was none); a server that speaks TLS never hands out or uses the plain stream, also if the TLS handshake fails; a request parsed by another HTTP server is validated the same way and handed back untouched, or upgraded with that server's unread bytes.",
  "every answer of the listener and of TLS, every byte stream and segmentation, every request",
  "a test has a handful of bad requests; what is lost on others does not show",
  ["src/server/sync.rs:accept", "src/server/async.rs:incoming", "src/server/upgrade/sync.rs:into_ws", "src/server/upgrade/async.rs:into_ws", "src/server/mod.rs:InvalidConnection"])
p("C61", "The parallel example server never mixes its clients up",
  "However the clients, the timer and the executor interleave, in examples/parallel-server.rs the clients get the identifiers 1, 2, 3, … each once; each client's sending half is in exactly one place (table, send under way, or lost with a failed send) and so is its receiving half; on each client's transport there are its own handshake and then whole greetings, exactly as many as were announced for it; and the messages processed under its number are exactly those its own bytes carry, in order, all of them once its stream has ended.",
  "for all sequences of turns (arrivals, accepts, hand-overs, timer firings, requests, sends, polls) of any length, any clients and any transports",
  "The number of interleavings of tasks is unbounded, and a mix-up would need a rare one; a test runs a few.",
  ["examples/parallel-server.rs:23-161", "examples/parallel-server.rs:163-183", "src/server/upgrade/async.rs:79-131"])
p("C62", "The parallel example server goes on serving its clients",
  "examples/parallel-server.rs keeps running and keeps hearing and greeting every client, whatever other clients do. (Refuted: a timer that fires twice before the requests are taken ends the program, as does one malformed frame or one bad handshake, and while one client is silent no other is heard.)",
  "for all sequences of turns, finite or without end, in which the requests of one firing are taken before the next; the refutations are concrete runs",
  "The panic needs the timer to overtake the send handler; on an idle machine that does not happen, and a test with one client does not notice that the others wait.",
  ["examples/parallel-server.rs:61-68", "examples/parallel-server.rs:76-96", "examples/parallel-server.rs:99-121", "examples/parallel-server.rs:147-161"])
p("C63", "The clients of the test suite answer everything and read the number of cases",
  "Whatever the test server sends, the case loop of examples/async-autobahn-client.rs replies to every data message and ping it hears before the first Close, error or end, in order, and says Close unless the stream just ended; update_reports answers pings and closes; and get_case_count yields the number in the text it was sent, whatever other messages surround it, panicking only if a text is not a number. (Refuted for the async get_case_count, which looks at the first message only.)",
  "for all byte streams, segmentations and transport errors on the receiving side, all limits and masking keys, over transports that accept writes in pieces",
  "Which replies are on the wire when an error arrives depends on where the stream is cut and on what follows in the same segment; the test server sends its count at once and alone, so no run meets a ping first.",
  ["examples/async-autobahn-client.rs:35-70", "examples/async-autobahn-client.rs:87-113", "examples/autobahn-client.rs:65-106", "examples/autobahn-client.rs:108-145"])
p("C64", "The async chat client sends exactly the pongs that are due and what the user says",
  "Whatever the server sends and whenever the user types, examples/async-client.rs writes the pongs for the pings it hears and the messages for the lines typed, each in its order, nothing else, all of them when both sides have ended; neither side can hold up the other; after the user's /close it sends nothing but pongs; it fails only with the error of the stream; and it answers a Close with a Close. (Refuted for the last: a Close of the peer is ignored, and the program goes on until the user types /close.)",
  "for all byte streams, segmentations and transport errors on the receiving side, all lines typed, all times at which the two are found ready, all limits and masking keys, over transports that accept writes in pieces",
  "The order of pongs and lines depends on the interleaving of two sources inside one task, and on which of them was polled first; a run shows one interleaving.",
  ["examples/async-client.rs:28-53", "examples/async-client.rs:59-76"])
p("C65", "The chat client over TLS answers pings and Closes and sends what the user says",
  "Whatever the server sends and whenever the user types, examples/ssl-client.rs writes the pongs and Closes for the pings and Closes it hears and the messages for the lines typed, each in its order, nothing else, all of them when both sides have ended; it fails only with the error of the stream; and it sends no data after a Close. (Refuted for the last: after answering the peer's Close the user's texts are still sent.)",
  "for all byte streams, segmentations and transport errors on the receiving side, all lines typed, all times at which the two are found ready, all limits and masking keys, over transports that accept writes in pieces",
  "The order of answers and lines depends on the interleaving of two sources inside one task; that data follows a Close shows only if the user types between the peer's Close and the end of the connection.",
  ["examples/ssl-client.rs:23-45", "examples/ssl-client.rs:50-63"])
p("C66", "An error tells what went wrong",
  "No conversion between the error types of the library loses anything: the text of a refused upgrade and of an HTTP codec error is kept, the value can be got back, the checks of both handshakes are told apart by their texts (with status and location where there is one), the error of another crate is the first of the causes, and a receive error shows which rule was broken. (Refuted for: the end of the stream and a failed TLS handshake, whose causes are dropped, and receive errors, whose message is not printed.)",
  "for all errors, with arbitrary texts and causes of the errors of other crates and an arbitrary table of reason phrases",
  "Every pair of errors would have to be converted and compared; the texts of other crates are open-ended.",
  ["src/result.rs:35-218", "websocket-base/src/result.rs:27-80", "src/server/upgrade/mod.rs:169-249", "src/codec/http.rs:212-249"])
p("C67", "From a bare transport to the last message, nobody gets stuck",
  "A client program that connects and talks and a server program that accepts and talks, each blocking or async, run side by side from before the first byte of the request. Whatever the schedule and however the network cuts the bytes, neither is refused, a client that has its connection has it with a server that has its, and each call has the result the other's list of calls says. Under every fair schedule both get their connections, and if the two lists can be carried out at all, both come to their ends with everything heard. And whatever two programs meet, once one is done or has been refused, the other does not wait for ever.",
  "for all URLs, builder calls, keys, server choices and extra headers whose lines can be sent, all lists of calls, all interleavings and cuttings of the bytes",
  "Deadlocks of this kind need one particular interleaving of two programs and one particular cut of the request or the answer.",
  ["src/client/builder.rs:502-519", "src/client/builder.rs:767-812", "src/server/upgrade/sync.rs:84-97", "src/server/upgrade/sync.rs:185-206", "src/server/upgrade/async.rs:105-131", "src/server/upgrade/async.rs:235-265", "src/client/sync.rs:162-194"])
p("C68", "No text given as a header value adds a line to a head",
  "Whatever texts a program passes as protocol, extension, origin, version or header value, the request and the response consist of the start line, one line for each header, and the empty line; every line is called by a name the library uses or the program gave as a name. So a peer's text passed on as a value cannot smuggle in a header or end the head. Programs whose texts have no control characters and no blanks at their ends, with at most 91 (client) or 95 (server) header lines of their own, make heads every parser understands, so that their handshake succeeds.",
  "for all URLs without line breaks in the resource, all sequences of builder and upgrade calls with any texts, all keys, blocking and async, accepted and refused",
  "Injection needs a text with a line break in one particular place; tests use well-behaved texts.",
  ["src/client/builder.rs:186-390", "src/client/builder.rs:844-884", "src/server/upgrade/mod.rs:60-91", "src/server/upgrade/mod.rs:137-163", "src/server/upgrade/sync.rs:110-118", "src/server/upgrade/async.rs:148-163", "src/header/protocol.rs:30-34", "src/header/extensions.rs:70-104", "src/header/origin.rs:28-32", "src/header/version.rs:37-41"])
p("C69", "The handshakes and the senders do not panic",
  "Connecting, waiting for a request or a response, accepting, refusing and sending never panic, whatever the peer sends, however the transport behaves and whatever the program has set. A blocking client can be used in any order of sends and receives without a panic. (Refuted: connecting, accepting and refusing panic exactly if the program has given a raw header line that is not UTF-8, or if an upgrade made by hand has no Sec-WebSocket-Key. The peer cannot bring this about, and nothing has been written when it happens.)",
  "for all head parsers, builders, transports and scripts of events; all upgrades made by into_ws, all later use_ calls, custom headers and limits; all sequences of sends and receives",
  "A panic needs one particular failure at one particular moment, such as an interrupted write of the response to a request with odd headers.",
  ["src/server/upgrade/mod.rs:137-163", "src/server/upgrade/sync.rs:84-118", "src/server/upgrade/async.rs:105-163", "src/server/upgrade/async.rs:235-265", "src/client/builder.rs:502-519", "src/client/builder.rs:767-812", "src/codec/http.rs:65-112", "src/client/sync.rs:154-194", "websocket-base/src/ws/dataframe.rs:53-92"])
p("C70", "What a stranger can make the library hold before the handshake is done",
  "A blocking server takes at most 512 KiB from a connection before it has decided about the request, and a blocking client before it has decided about the response; their buffers are no larger. (Refuted for the async server and client: they hold everything they are sent as long as no blank line comes.)",
  "for all parsers, all byte streams, segmentations and transport errors",
  "A test would have to send more than any test does and look at the memory of the server.",
  ["src/server/upgrade/sync.rs:185-206", "src/client/builder.rs:502-519", "src/codec/http.rs:65-112", "src/codec/http.rs:188-206", "src/server/upgrade/async.rs:235-265"])
p("C71", "After the handshake the async buffers are bounded",
  "However often it is polled and whatever arrives, an async message or frame stream never has more bytes in its buffer than a header, the largest frame the limits allow and one read together, or what the handshake left in it if that is more; and when it waits it has less than one frame. The handshake leaves less than one read, unless the request began with blank lines. The async sink has fewer than 8 KiB and one frame queued however slowly the peer reads.",
  "for all codecs, limits, byte streams, segmentations, errors and numbers of polls; for all sequences of sends and flushes over all transports",
  "The bound has to hold for every prefix of every stream; growth shows up only after long runs with an unlucky segmentation.",
  ["websocket-base/src/codec/ws.rs:112-148", "websocket-base/src/codec/ws.rs:278-326", "websocket-base/src/ws/util/mod.rs:20-26", "src/server/upgrade/async.rs:105-131", "src/client/builder.rs:767-812"])
p("C72", "A program that goes on receiving after an error",
  "If a program keeps calling receive after errors, every call reports exactly what the frames on the wire call for: which message or which error, which fragments are kept, and where the next call starts. A refused frame costs exactly that frame; a refused message exactly its fragments. (Refuted: the messages delivered after an error are messages the peer sent. A fragment with the wrong mask leaves a hole in its message, and after a bad header or a frame above the limit the blocking receiver reads payload bytes as frames; the async stream instead reports that error for ever.)",
  "for all receivers and codecs in any state, all lists of legal frames within the frame limit masked either way, all segmentations and any number of calls",
  "The state after an error depends on which of ten kinds of error it was and on what was held; a test sees one order of a few of them.",
  ["websocket-base/src/ws/receiver.rs:39-58", "src/receiver.rs:127-186", "websocket-base/src/codec/ws.rs:278-326", "websocket-base/src/dataframe.rs:44-82", "websocket-base/src/message.rs:189-244"])
p("C73", "Raw access to the stream and shutting down",
  "Reading and writing the stream directly between calls on the library loses and repeats no byte: any mix of raw reads, raw writes, receives and sends takes consecutive bytes of the incoming stream, starting with those buffered, and adds in order to the outgoing stream. The documented patterns (send into a vector and write it, read to the end and receive from a cursor) do what the library's own calls do. After shutting down the receiving side, receives give a prefix of what they would have given, then report the end; after shutting down the sending side no send succeeds, nothing goes out, and receives are unaffected. (Refuted: into_stream returns the unread bytes in the documented form.)",
  "for all clients in any buffer state, all transports, all sequences of calls, all cut points and transformations",
  "How raw calls and the buffer interact depends on the segmentation and on where the calls fall; a test sees one.",
  ["src/client/sync.rs:65-111", "src/client/sync.rs:234-314", "src/receiver.rs:60-75", "src/sender.rs:45-60"])
p("C74", "Two programs over a network that holds little",
  "When the network holds a bounded number of bytes each way, so that a send returns only when the peer has taken all but so many, two programs whose calls fit together still hear exactly what the other says, in order; and under every fair schedule either both come to their ends or both end up inside a send, each having said more than fits that the other has not listened for. In particular programs that take turns always finish, with any room, even none, and any message sizes; and so do programs one of which never says more in all than fits. (For every room there are programs that fit together and never finish.)",
  "for all pairs of programs, blocking or async, all room sizes each way, all schedules and all cuts of the bytes by the network",
  "Back-pressure needs full socket buffers and particular interleavings; the repository's tests exchange a few bytes over loopback.",
  ["src/client/sync.rs:154-194", "websocket-base/src/ws/dataframe.rs:53-92", "websocket-base/src/codec/ws.rs:112-165", "src/receiver.rs:127-186"])
p("C75", "The example client and the example server get on with each other",
  "When the example client (three threads: one reads lines, one sends, one receives) talks to the example server, then whatever the user types, however the threads are scheduled, however the network cuts the bytes and however little it holds: the server never panics, it hears the lines the user typed in order, and the user sees the greeting, then the answer to every line in order, and never an error. If every thread gets turns again and again and the network carries again and again, the answer to every line is seen in the end; and once a line says /close both programs come to their ends, the server having heard exactly the lines before it and a Close.",
  "for all lists of lines that are text and fit both sides' frame limit, all schedules of the four threads and the network, all cuts, all room sizes, all masking keys",
  "Whether some interleaving of four threads and a full socket gets stuck or loses a line cannot be seen by running the examples.",
  ["examples/client.rs:25-128", "examples/server.rs:12-46", "src/client/sync.rs:154-194"])
p("C76", "The test-suite clients run every case once, in order",
  "Each of the two programs that drive the test suite asks for the number of cases, makes one connection per case, in order, none left out and none twice, and then asks for the reports. Every connection asks the server for exactly what it is for, and no two ask for the same. How one case goes has no influence on what is said in another, and a case that goes wrong does not keep the later cases from being run.",
  "for all worlds (every connection meets its own network, server, segmentation, transport and masking keys), all numbers of cases",
  "A test run sees one server. Which connection attempts follow a failure at the k-th of n cases, for every k and n and every way to fail, is a statement about all runs.",
  ["examples/autobahn-client.rs:7-145", "examples/async-autobahn-client.rs:13-113"])
p("C77", "The async example client and server answer every line and come to an end",
  "examples/async-client.rs connected to examples/async-server.rs, after the handshake: the server hears what the user typed, in order, once; the user sees the greeting and then the answer to every line, in order; neither program fails. When a line asks to leave, both come to an end, with everything said and seen, however the executor interleaves them and however little room the network has.",
  "for all inputs of the user, all schedules of the typing thread and the two tasks, all amounts of room in the network, all ways in which reads and writes are cut up, all masking keys and limits",
  "Whether two tasks that each stop reading while they cannot write ever wait for each other depends on the interleaving and on how full the buffers are. A test sees a few interleavings on a fast local network, where this does not happen.",
  ["examples/async-client.rs:31-76", "examples/async-server.rs:48-68"])
p("C78", "The chat clients connect where they say and write their request first",
  "The chat clients, from `main` on: examples/client.rs and examples/async-client.rs resolve and dial 127.0.0.1:2794 and nothing else, without TLS; examples/ssl-client.rs resolves and dials echo.websocket.org:443 and writes nothing unless TLS was set up for that host. Each writes exactly one request (byte for byte: the resource, the host, the protocol rust-websocket for the first two, and a key), and behind it only masked frames: what the user typed and the answers the program owes. A connection that fails ends the program, with at most a part of the request written.",
  "for all networks (resolvers, transports, TLS layers), all nonces, all inputs of the user, all schedules, all that a server sends behind its answer",
  "A test runs the program against one local server. That nothing but a part of the request goes out when the server refuses, resets or stalls, and that the TLS client falls back to plain text on no network, are statements about all networks.",
  ["examples/client.rs:12-128", "examples/async-client.rs:17-78", "examples/ssl-client.rs:16-65"])
p("C79", "The example client and the example server, from the first byte of the request to the end",
  "examples/client.rs and examples/server.rs as two running programs, joined by a network that holds a bounded number of bytes (possibly none) and carries any number at a time: from the moment the connection is made, whatever the schedule, neither `unwrap()` of the handshake panics, the server does not drop the client and its thread does not panic. The client has written nothing, or its request and behind it one masked frame for every message it has sent; the server has written nothing, or its answer with the protocol and the accept value for the client's key, and behind it the greeting and one frame in answer to every message it has heard. If everybody moves again and again, both get their connections, every line typed is answered, and when the user types /close both programs end, the server having heard everything typed before, the user having seen the greeting and every answer.",
  "for all nonces and masking keys, all lines the user types that fit in 100 MiB frames, all sizes of the network's buffers, all schedules of the threads and of the network (all fair endless ones for the last part), all chunkings",
  "A test runs the two programs under one schedule of one operating system. A hang in the handshake or a byte lost between the handshake and the first frame shows only under particular chunkings and schedules, and that the programs always come to an end is a statement about endless runs.",
  ["examples/client.rs:12-128", "examples/server.rs:7-48", "src/client/builder.rs:450-454", "src/client/builder.rs:502-519", "src/server/sync.rs:264-270", "src/server/upgrade/sync.rs:56-58"])
p("C80", "The async example client and the async example server, from the first byte of the request to the end",
  "examples/async-client.rs and examples/async-server.rs as two running programs, joined by a network with bounded room: from the moment the connection is made, whatever the schedule, the handshake does not fail and nobody is turned away. The client has written its request or a beginning of it, and behind it only the masked frames of the first lines typed; the server nothing, or its answer with the protocol and the accept value for the client's key or a beginning of it, and behind it only the frames of the greeting and the first answers. The server hears what was typed and the user sees the greeting and the answers, in order. Under every fair schedule both get through the handshake, however little room there is, every line is answered, and when a line asks to leave both come to an end, with everything said and seen.",
  "for all nonces and masking keys, all lines the user types that fit in 100 MiB frames, all amounts of room in the network, all schedules of the typing thread and the two tasks (all fair endless ones for the last part), all ways in which reads and writes are cut up, all parsers that meet the specification of httparse",
  "A test runs the two programs with one executor on a fast local network, where the request and the answer arrive in one piece. A byte lost when the codec is exchanged, a head cut anywhere, lines typed during the handshake, and whether the two ever wait for each other, are matters of all interleavings and all chunkings.",
  ["examples/async-client.rs:31-78", "examples/async-server.rs:25-70", "src/client/builder.rs:780-809", "src/server/upgrade/async.rs:105-158", "src/server/upgrade/async.rs:235-265"])
p("C81", "What two programs tell each other does not depend on the schedule, the network, the masking keys or the kind of client",
  "Two programs, each choosing its next call of the library by everything that has happened to it so far, over an open connection. Whatever the schedule and however the network cuts the bytes, what has happened to them is something that can happen between two programs that hand each other messages: every send has succeeded, every receiving call gave the next message of the other, or the end when the other had ended and all was heard. Two runs of the same programs, with other schedules, keys, limits and transports, blocking or async, never contradict each other: what has happened to a program in one is a beginning of what has happened to it in the other. Under every fair schedule everything that can happen happens, so that if one run comes to rest every fair run does, with the same result; and programs at rest have both ended, or wait for each other by their own choice. For examples/server.rs: whatever a client does, it is given the greeting and the answers to what it sent, in order, up to the first close, and when it listens it gets the next one.",
  "for all pairs of programs (functions from pasts to calls) that say only what the other side's limits allow, all masking keys, limits and transports, blocking and async clients and servers in any combination, all schedules (all fair endless ones for the last parts), all ways in which the network cuts the bytes",
  "A test fixes two programs and watches a few runs. That no schedule, no cut of the bytes and no choice of client makes a program see anything else, for programs whose every step depends on what they saw before, is a statement about all programs and all pairs of runs.",
  ["src/client/sync.rs:162-167", "src/client/sync.rs:192-194", "websocket-base/src/codec/ws.rs:278-343", "websocket-base/src/ws/receiver.rs:94-105", "examples/server.rs:24-45"])
p("C82", "Programs that choose tell each other the same things from bare transports on",
  "A client program that connects (blocking or async) and a server program that accepts (blocking or async); once it has its connection each chooses its next call by everything that has happened to it so far. Whatever the schedule and however the network cuts the request, the answer and the frames — the server may begin to talk while its answer is still under way — nobody is refused, and what has happened to the programs is something that can happen between two programs that hand each other messages. Two runs of the same programs with other addresses, headers, keys, limits, kinds of client, transports and schedules never contradict each other. Under every fair schedule both connect and everything that can happen happens, so that if one run comes to rest every fair run does, with the same result. For examples/server.rs: whatever a client does that connects to it, it is given the greeting and the answers to what it sent, in order, up to the first close.",
  "for all client builders, requests, servers and answers whose heads can be sent and fit each other, all pairs of programs (functions from pasts to calls) that say only what the other side's limits allow, all masking keys, limits and transports, blocking and async in any combination, all HTTP parsers and base64 implementations that meet their specifications, all schedules (all fair endless ones for the last parts), all ways in which the network cuts the bytes",
  "A test runs one pair of programs once or twice. Whether a byte of a first message that arrives together with the end of the answer is lost depends on how the network cuts the stream; that no cut, schedule or choice of client ever changes what a program is told is a statement about all of them.",
  ["src/client/builder.rs:502-519", "src/client/builder.rs:767-812", "src/server/upgrade/sync.rs:84-97", "src/server/upgrade/sync.rs:185-206", "src/server/upgrade/async.rs:105-131", "src/server/upgrade/async.rs:235-265", "src/client/sync.rs:162-194", "examples/server.rs:24-45"])
p("C83", "A program against a peer that does anything: what happens to it is decided by the bytes that came",
  "A program that chooses each of its calls by everything that has happened to it so far, on a connection whose other end sends whatever it likes: well-formed frames, malformed ones, half ones, anything, cut and timed in any way. At any time what has happened to the program is what it does when its receiving calls return, one after the other, what they return when all these bytes are there from the beginning, and its sends succeed exactly if the message may be sent (control payloads up to 125 bytes). So two runs with the same bytes never contradict each other, whatever the cuts, the times, the masking keys and the transport. What it has written are exactly the frames of its successful sends, in order; a refused send has written nothing. After the end of the stream no call waits: the program goes on until it ends by itself, and everything that it can come to do it does. For examples/server.rs: against anybody it says its greeting and one answer to each message that came, up to the first Close or the first error, nothing else, all its sends succeed, and after the end of the stream it is done within a bounded number of turns. An async client is included as long as it does not report its message limit, which it never does if less than 1/32 of that limit comes; where it reports it depends on how the bytes are cut (C23).",
  "for all programs (functions from pasts to calls), all byte strings, all ways to cut them and all times at which they come, all masking keys and limits, all transports that take what they are given (with partial writes, interruptions and would-block), blocking and async clients of either role",
  "A test or a fuzzer feeds some bytes in some pieces to one program. That no way to cut or time any bytes changes anything for any program is a statement about all of them.",
  ["src/client/sync.rs:162-167", "src/client/sync.rs:192-194", "src/receiver.rs:119-187", "websocket-base/src/codec/ws.rs:271-344", "websocket-base/src/ws/sender.rs:28-36", "examples/server.rs:24-45"])
p("C84", "A program that opens its connection against a peer that does anything: all is decided by the bytes that came, from the first one on",
  "A server program that calls into_ws and accept, or a client program that calls connect_on (blocking or async), and afterwards chooses each of its calls by everything that has happened to it so far. The peer sends whatever it likes, cut and timed in any way. Whether the program gets its connection is decided by the bytes alone: a blocking one looks whether the first 2^19 bytes begin with a request (response) that meets the conditions of C33 (C34), an async one looks at what comes before the first blank line. While the bytes may still become such a head, it waits; as soon as they are one, or cannot become one, or the stream ends, its next turn settles it, and for good. From then on what has happened to it is what it does when its receiving calls return, one after the other, what the bytes behind the head say when they are all there; two runs with the same bytes never contradict each other. What it has written is nothing, or the request of a client, or its half of the handshake and behind it exactly the frames of its successful sends. After the end of the stream no call waits. examples/server.rs says nothing to somebody who is not let in, and to anybody else its greeting and one answer to each message, and is done within a bounded number of turns. Async programs are included if the bytes do not begin with a line end (with hyper's way of reading heads): otherwise the same bytes, cut differently, are let in or refused (C84_refuted_blank_lines; C42), and if the message limit is not reported (C23).",
  "for all programs (functions from pasts to calls), all server answers and client requests that can be sent, all limits, masking keys and transports that take what is written, all byte sequences, all ways in which they are cut and timed, all HTTP parsers and base64 implementations that meet their specifications",
  "Tests send a few requests in one or two pieces. Whether a byte is lost between the head and the first frame, whether a server decides too early or too late, or answers somebody it should not, depends on the cut and on bytes that no test has; this is about all bytes, all cuts and all programs.",
  ["src/server/upgrade/sync.rs:84-97", "src/server/upgrade/sync.rs:185-206", "src/server/upgrade/async.rs:105-131", "src/server/upgrade/async.rs:235-265", "src/client/builder.rs:502-519", "src/client/builder.rs:767-812", "src/client/sync.rs:162-194", "examples/server.rs:24-45"])
p("C85", "examples/server.rs whoever calls: what it writes and when it hangs up is decided by the bytes that came",
  "One connection of examples/server.rs, from the moment it has been accepted by the operating system, and a peer that sends whatever it likes, cut and timed in any way. At any time the server has written no more than it owes: nothing as long as no whole head is there or if the bytes are no opening handshake; 'HTTP/1.1 400 Bad Request' and a blank line if they are one that does not offer the subprotocol rust-websocket; and else a 101 that selects it, whose Sec-WebSocket-Accept is the one for the key, then the text 'Hello', and then one answer for each of the first messages heard in the bytes behind the head: a Pong with the same data for a Ping, a Close for a Close, and every other message back. It hangs up only for a reason: the stream has ended too early, the bytes are no handshake, the 400 has been written, or all that is owed has been written up to an answered Close, or up to something that is no message, or up to the end of the stream. And given enough turns it does all that it owes, and then keeps the connection open exactly if the peer may still say something. So two runs with the same bytes end with the same bytes written and both or neither hung up, however the bytes were cut and whatever the transport did.",
  "for all byte sequences, all ways in which they are cut and timed, all orders of turns, all transports that take what is written in any pieces, all HTTP parsers and base64 implementations that meet their specifications",
  "The example is run by hand against a browser or its own client. What it does with a request in pieces, with frames in the same packet as the request, with rude or unfinished peers, is not tried; this is about all peers.",
  ["examples/server.rs:7-46", "src/server/sync.rs:225-243", "src/server/upgrade/sync.rs:84-97", "src/server/upgrade/sync.rs:117-160", "src/server/upgrade/sync.rs:185-206", "src/receiver.rs:100-170"])
p("C86", "examples/server.rs and everybody who calls: what a peer gets does not depend on the others, but when it gets it does",
  "All connections of examples/server.rs at once, in the order in which the operating system hands them out; the peers connect, send whatever they like and hang up whenever they like, and an operating system decides which thread moves next. Each connection is as if there were no other: at any time its peer has been written no more than C85 allows for the bytes of this peer, and is hung up on only for the reasons of C85. If nobody who connected before dawdles (a peer dawdles while its head is neither whole nor hopeless and it has not hung up), the peer gets all that it is owed once the main thread and the thread of its connection have had turns enough, whatever the other threads do in between; so what it gets in the end depends on its own bytes only. The full claim, that everybody gets it, fails: next calls accept, which reads the head of a connection to its end before the next one is accepted, so while one peer dawdles, nobody who connected after it is answered, whatever happens.",
  "for all sequences of connections, bytes, hang-ups and turns, all byte sequences, all numbers of connections, all transports that take what is written in any pieces, all HTTP parsers and base64 implementations that meet their specifications",
  "A test with two or three well-behaved clients passes. That bytes of one connection never reach another, that no peer can make the server hang up on somebody else, and that one silent peer stops the server for all later ones, is about all peers and all interleavings of threads.",
  ["examples/server.rs:7-48", "src/server/sync.rs:225-253", "src/server/sync.rs:264-270", "src/server/upgrade/sync.rs:185-206"])
p("C87", "The receivers do the same on machines with a smaller usize",
  "On a machine whose usize has 32 to 64 bits, compiled with overflow checks or without, any number of receive calls, blocking or async, over any transport, return the same, leave the same behind and take the same from the transport as on the machine of 64 bits without overflow that the other properties are about, and do not panic, as long as the configured limits leave room: the message limit (or a frame, if that is more) and one frame for every report of an exceeded message limit that the program ignores, and one more, take less than half of the address space. The default limits do on 32 bits, any limits do on 64. The size of a frame is computed without overflow, and the reader without limits returns the same frames. The full claim, for all limits that may be configured, fails: on 32 bits ten bytes crash a receiver that allows frames of 2^31 bytes.",
  "for all widths of usize from 32 to 64 bits, with and without overflow checks, all limits, all numbers of calls, all transports (any segmentation, interruptions, failures), all bytes left over from the handshake",
  "Tests run on one machine, usually of 64 bits, where the casts to usize do nothing and nothing overflows; on 32 bits a test would need frames of gigabytes, or the idea to announce one.",
  ["websocket-base/src/dataframe.rs:85-117", "src/receiver.rs:101-186", "websocket-base/src/codec/ws.rs:112-148", "websocket-base/src/codec/ws.rs:278-326", "websocket-base/src/message.rs:189-246", "websocket-base/src/ws/dataframe.rs:27-46"])
p("C88", "examples/async-server.rs owes everybody the same answer to the same bytes",
  "Whatever a peer of examples/async-server.rs sends, in whatever pieces it arrives and whenever the future is polled, the server writes a prefix of what the bytes that came deserve, made on all of them at once: nothing if they are no opening handshake, a 400 if the subprotocol rust-websocket is not offered, otherwise the 101, the greeting, for each message up to the Close its answer in order, and a Close; and it lets go of the connection only if the bytes or the end of the stream call for it. If it is polled often enough, with some room each time, it gets through all of this, and two servers that got the same bytes have written the same and both have let go or not, provided that the messages do not run into an error. This last condition is needed: the answer to a message can be lost if bytes that are no message arrive together with it. The answer to the opening handshake and the greeting cannot. The bytes must settle what hyper and the message limit make of them; those that do not begin with a line end and are not more than 6.5 million do. What has been written to a peer is never taken back, and nothing is written to a peer that the server has let go of.",
  "for all bytes, all ways to cut them, all interleavings of arrivals, polls (with any number of bytes found and any room) and the end of the stream, all keys",
  "Tests talk to the server with one well-behaved client over a fast connection, where each message arrives alone and each answer has been written before the next one comes.",
  ["examples/async-server.rs:25-70", "src/server/upgrade/async.rs:105-131", "src/server/upgrade/async.rs:235-265", "src/server/async.rs:64-77", "websocket-base/src/codec/ws.rs:112-148"])
p("C89", "The callers of examples/async-server.rs do not affect each other at all",
  "Whatever all the peers of examples/async-server.rs do, each connection is in a state that it reaches alone when its peer does the same; so each peer is written no more than C88 says it is owed for its own bytes, and is let go of only for its own doings. If the main future and the task of its connection are polled often enough, with something found and some room each time, then a peer gets what it is owed, whatever the others do before, in between and after: nobody has to wait for a silent caller, as the callers of examples/server.rs do (C86). What it gets depends on its own bytes only, provided that they run into no error (see C88). What has been written to a peer is never taken back, and nothing is written to a peer that the server has let go of.",
  "for all numbers of connections and all interleavings of arrivals, bytes, ends and polls, of the main future (in whatever order it polls its handshakes) and of the tasks, without fairness towards anybody else",
  "A test that connects two clients tries one interleaving; that nothing of one connection reaches another, and that one that never finishes its head delays nobody, are claims about all.",
  ["examples/async-server.rs:24-72", "src/server/async.rs:64-89", "src/server/upgrade/async.rs:235-265"])
p("C90", "One caller of examples/async-autobahn-server.rs who sends no opening handshake ends it for everybody, and nothing else does",
  "Whatever all the peers of examples/async-autobahn-server.rs do, each connection is in a state that it reaches alone when its peer does the same; so at any time each peer has been written no more than its own bytes deserve: nothing unless they begin with an opening handshake, otherwise a 101 without a subprotocol, for each message up to the Close its answer in order, and a Close; and it is let go of only for its own doings. The process ends if, and only if, somebody sends a head that is no opening handshake or hangs up before the end of it, as soon as that connection has been polled often enough; from then on nobody gets anything. If nobody does, then each peer gets all it is owed once its own connection has been polled often enough, whatever the others do. What has been written to a peer is never taken back, and nothing is written to a peer that the server has let go of.",
  "for all numbers of connections and all interleavings of arrivals, bytes, ends and polls, of the main future (in whatever order it polls its handshakes) and of the tasks; for all bytes, all ways to cut them, all keys",
  "The Autobahn suite only opens connections with proper handshakes; that a single other one takes away the answers of everybody else shows only when somebody misbehaves while others are being served, and that nothing else does this is a claim about all interleavings.",
  ["examples/async-autobahn-server.rs:20-48", "src/server/async.rs:64-89", "src/server/upgrade/async.rs:105-131", "src/server/upgrade/async.rs:235-265"])
os.chdir(os.path.dirname(os.path.abspath(__file__)) + "/..")
with open("properties.jsonl", "w") as f:
    for x in P:
        f.write(json.dumps(x) + "\n")
print(len(P))
