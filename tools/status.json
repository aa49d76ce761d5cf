{
 "C01": [
  "proved",
  "Any transport script, any implementor of the frame trait that keeps its contract, payloads below 2^63 bytes."
 ],
 "C02": [
  "proved",
  "Blocking with and without limit, async. Control frames must be final (witness theorem shows why)."
 ],
 "C03": [
  "proved",
  "Any transport script (blocking); both directions for the async decoder."
 ],
 "C04": [
  "proved",
  "Never read on any transport; an error once the header has arrived."
 ],
 "C05": [
  "proved",
  "Over a vector endpoint, which is the only use in the crate; short-write corruption shown by a witness theorem."
 ],
 "C06": [
  "proved",
  "Mask bit of every returned frame matches the role; legal frames of the wrong direction are consumed and refused with the matching error."
 ],
 "C07": [
  "proved",
  "Encoding into the async buffer includes every spare capacity and allocator growth."
 ],
 "C08": [
  "proved",
  "Exact refusal condition; the sink is unchanged."
 ],
 "C09": [
  "proved",
  "No execution of either receiver (blocking or async, frames or messages, any script of reads/errors) panics, for every byte string the peer may send, with dataframe limit below 2^63 and total input below isize::MAX. usize overflow of the running message length is not modelled as a panic."
 ],
 "C10": [
  "proved",
  "Blocking and async with limits. The unlimited reader can panic on a huge length (witness theorem). Bounds of returned frames for every history of either endpoint (C10_limit_respected_async, C10_limit_respected_receiver)."
 ],
 "C11": [
  "proved",
  "Exact characterisation of success, in both the borrowed and the owned form; never panics within the allocation limit."
 ],
 "C12": [
  "proved",
  "Validator equals the RFC 3629 grammar; delivered text is valid on any transport and any chunking; valid text is accepted."
 ],
 "C13": [
  "proved",
  "All owned messages, and the exact borrowed messages that survive."
 ],
 "C14": [
  "proved",
  "Serialising and reading back gives the same message: blocking and async receivers, owned and borrowed messages, any segmentation and any following bytes. Sendable: text is UTF-8, control payload at most 125 bytes, payload within the receiver's frame limit."
 ],
 "C15": [
  "proved",
  "All payload lengths 0, 1 and above."
 ],
 "C16": [
  "proved",
  "All message kinds."
 ],
 "C17": [
  "proved",
  "Any schedule of fragments and interleaved control frames, from any receiver state, on any segmentation; also with held fragments to start."
 ],
 "C18": [
  "proved",
  "Same statement for the async codec, on any script of chunks and pauses."
 ],
 "C19": [
  "proved",
  "Exact error text and unchanged held fragments, blocking and async."
 ],
 "C20": [
  "proved",
  "Exact delivered/held bounds for both receivers up to the first reported limit error, over any sequence of receive calls."
 ],
 "C21": [
  "partial",
  "The property is false for the code: after a limit error the buffered fragments are kept and further fragments keep being appended (C21_refuted_blocking, C21_refuted_async), and a final frame still delivers the refused message (C21_refused_message_delivered_blocking). Proved instead: what one call can add after an error, and for any number of calls on any transport that the excess over the bounds of C20 is at most one frame per ignored error (C21_growth_total_*)."
 ],
 "C22": [
  "proved",
  "Any script of non-empty chunks and not-ready events, any number of items."
 ],
 "C23": [
  "partial",
  "The claim is false as stated: C23_refuted gives a message accepted in one chunking and refused in another. The dependence is described completely: the items of any chunking are those of the bytes arriving one by one up to a limit error (C23_extremes), a message that fits with 64 bytes for its last frame is delivered one by one (C23_one_by_one) and one that does not is refused in every chunking (C23_certain_refusal), and one that fits with 64 bytes per frame is delivered in every chunking (C23_within_limit), which is exact for one chunk (C23_at_once_refused). The partial theorem covers every stream on which the message size limit is not reported."
 ],
 "C24": [
  "proved",
  "Any two clean segmentations of the same bytes give the same results and end state, for messages and for raw frames."
 ],
 "C25": [
  "proved",
  "Both receivers report the same messages up to the first error, which is the same up to naming, on any byte string and any cutting, while neither reports the message-size limit (there they differ: >= against >, see DESIGN.md). On all streams both report the same up to the place where one of them reports the limit (C25_agree_until_limit); C25_limits_differ shows that they do differ there, in both directions."
 ],
 "C26": [
  "proved",
  "All four combinations of blocking/async sender and receiver, any list of sendable messages and keys, any transport behaviour on the sending side (async: including failures), any segmentation on the receiving side; plus: sends over a willing transport succeed and flush empties the queue."
 ],
 "C27": [
  "proved",
  "Cut inside a frame: the blocking receiver reports no data and delivers only the complete messages; the async stream reports leftover bytes."
 ],
 "C28": [
  "partial",
  "False for the blocking receiver when the transport has no data inside a frame (C28_refuted_blocking). Proved: blocking, errors at frame boundaries (also inside fragmented messages) cost nothing, and an error inside a frame costs exactly the bytes read of that frame (C28_blocking_exact_loss, any number of errors anywhere); async, not-ready answers anywhere, for any decoder."
 ],
 "C29": [
  "partial",
  "Async: full statement, any operations and failures. Blocking: for a caller who goes on sending after a failure the statement is false (C29_refuted_after_failure); proved is what is on the wire after every history: one piece per send, whole, empty or a proper beginning of the frame according to the result reported (C29_blocking_any_history)."
 ],
 "C30": [
  "proved",
  "Splitting is refused only when duplicating the transport handle fails (TcpStream::try_clone); that failure is an explicit input."
 ],
 "C31": [
  "proved",
  "Any base64 decoder that undoes the encoder; exact characterisation with the RFC 4648 decoder."
 ],
 "C32": [
  "proved",
  "SHA-1 and base64 modelled as code and proved equal to independent RFC 3174 / RFC 4648 specifications."
 ],
 "C33": [
  "partial",
  "Exact acceptance condition and first failing condition proved for all received requests; the property as stated is refuted for version headers that are repeated, empty or not UTF-8 (they are ignored), and holds for all others. into_ws and its async form report exactly this decision for any arrival."
 ],
 "C34": [
  "partial",
  "The response's Connection header is not looked at: the client checks its own request (C34_refuted_connection). Everything else of the decision is exact, with the first failing condition reported. connect_on and its async form report exactly this decision for any arrival."
 ],
 "C35": [
  "proved",
  "Request side, server side and client side are separate theorems about header lines and are combined for two blocking ends and for two async ends. Header lines, target and head size are assumed to be legal HTTP (Sendable, Target, maxBufferSize)."
 ],
 "C36": [
  "proved",
  "For every history of use_* calls and custom headers; the header map invariant (one entry per name) is hyper's."
 ],
 "C37": [
  "partial",
  "Proved for every sequence of builder calls: the bytes sent, the Upgrade/Connection/Host lines, the fresh key and the default version. Partial: a key or version set by the caller is kept only if it is not cleared or overwritten afterwards (C37_refuted_key, C37_refuted_version show that the request can then lack it)."
 ],
 "C38": [
  "partial",
  "Proved for every sequence of builder calls that touches the header only through add/clear; a header set by the caller that does not parse turns add into a no-op (C38_refuted_unreadable)."
 ],
 "C39": [
  "partial",
  "The blocking client's message limit is set to the data frame limit (C39_refuted_blocking_client). Server, async server and async client are exact."
 ],
 "C40": [
  "proved",
  "Name resolution, TCP and TLS are parameters; the model fixes which of them is called, with which host and port."
 ],
 "C41": [
  "partial",
  "Proved for every transport script, parser, call history and limit: blocking server and client, async server and client when the head ends at its first CR LF CR LF. Refuted where it fails: blocking reject and a failed blocking accept drop the bytes read ahead; an async server loses bytes after a head ended by bare LFs."
 ],
 "C42": [
  "partial",
  "Proved for every buffer, transport script and chunking when the parser does not ask for more after a blank line; for the concrete parser that is every head with a byte other than CR and LF (C42_concrete_chunking). Heads of line ends alone are chunking dependent (C42_refuted_blank_lines)."
 ],
 "C43": [
  "partial",
  "The full property is false (C43_refuted): parameter values are glued to the names. Proved: exactly what comes back, the round trip holds exactly for lists without values, and the text is stable."
 ],
 "C44": [
  "proved",
  "Also an exact specification of the parser on arbitrary lines."
 ],
 "C45": [
  "proved",
  "Blocking and async, every write script; also that reading and validating the request writes nothing."
 ],
 "C46": [
  "proved",
  "All 16 opcodes and all message kinds."
 ],
 "C47": [
  "proved",
  "Four theorems, one per combination of blocking and async ends. Sinks may write partially and be interrupted (blocking) or be not ready (async) but do not fail; sources deliver bytes and then end."
 ],
 "C48": [
  "partial",
  "autobahn-server.rs and autobahn-client.rs: full claim for every input. async-autobahn-server.rs: full claim for a Close or the end of the stream between frames; on a stream error C48_async_loses_replies shows a reply that was due and no Close (C48_async_any_input says exactly what is written). server.rs: full claim up to the Close; C48_server_panics_at_end proves the panic without one. Round trips with all four client/server combinations."
 ],
 "C49": [
  "proved",
  "Blocking: the n-th item is the n-th call's own result. Async: buffer_unordered modelled as a transition system over arrivals and polls; isolation, exactly-once, no starvation, schedule independence."
 ],
 "C50": [
  "partial",
  "autobahn-server.rs, server.rs and async-server.rs: full claim. async-autobahn-server.rs stops at the first refused request: C50_async_autobahn_stops, C50_async_autobahn_refuted; C50_async_autobahn_survives_partial holds while nobody is refused."
 ],
 "C51": [
  "proved",
  "Locality of every reading function (the answer on s ++ t is the answer on s) combined with C17/C18; NotReady only after the transport's WouldBlock, with no complete frame buffered, after any number of polls; same for the sink."
 ],
 "C52": [
  "partial",
  "Blocking server and client: full claim. Async: holds unless hyper wants more after the first blank line; C52_async_server_refuted shows the async server waiting with a complete request in its buffer when a blank line precedes it."
 ],
 "C53": [
  "proved",
  "Threads as an arbitrary list of turns over the model of split, the mpsc channel as a list; invariant ChatInv. C53_floods_after_eof records that end of input on stdin is not noticed."
 ],
 "C54": [
  "proved",
  "Two Party states and the bytes between them; a schedule is any list (or infinite sequence) of events. The network holds any number of bytes in flight; writes that are refused with would-block are retried by the caller (async) or wait (blocking)."
 ],
 "C55": [
  "proved",
  "Converse of C17/C24: soundness from any state on any transport, for both stacks; C55_one_reading gives uniqueness."
 ],
 "C56": [
  "proved",
  "Client.run over an arbitrary list of calls; C56_frames_set_aside relates the answers to C55's Carried."
 ],
 "C57": [
  "proved",
  "Causes listed with their errors in Spec/Blame.lean; C57_frame, C57_blocking, C57_decoder, C57_async. The theorem names one cause that is present; where a frame has two faults it does not say which is reported first (C04 gives the order for headers)."
 ],
 "C58": [
  "partial",
  "Refuted in three corners, each with a theorem: an explicit port 80 or 443 is left out of Host even if it is not the default of the scheme (C58_refuted_host_port, hyper's Host formatting); percent-encoded credentials are sent undecoded (C58_refuted_encoded_credentials); a password without user name is not sent (C58_refuted_password_only). Proved outside these corners for every URL and every sequence of builder calls."
 ],
 "C59": [
  "partial",
  "Refuted for extension parameters with values, which arrive glued to the name (C59_refuted_values, following C43): the two ends disagree. Everything else proved: C59_both_ends_partial and C59_{blocking_async,async_blocking,async_async}_partial for the four pairs of ends, C59_server_lists, C59_client_lists_partial, C59_requested_*; list entries must be writable as list items (no comma, no blanks around, UTF-8)."
 ],
 "C60": [
  "proved",
  "Outcomes of both servers' accept listed completely; what the async buffer contains is stated by C41 and C42, including their refuted corner."
 ],
 "C61": [
  "proved",
  "The executor only decides whose turn it is; every order of turns is covered."
 ],
 "C62": [
  "partial",
  "The code refutes the full claim (C62_refuted_busy, C62_refuted_bad_message, C62_refuted_silent, C62_refuted_bad_handshake). Proved: with a send handler that keeps up the program ends only for a bad handshake or a failing stream, never with an invalid id, and not at all if every client sends whole messages (C62_stays_partial); then, under every fair schedule without end, every client is heard to the end of its stream (C62_hears_everyone_partial) and greeted again and again (C62_greets_on_partial); a round greets everyone once; streams are read one at a time."
 ],
 "C63": [
  "partial",
  "The code refutes the full claim for the async get_case_count (C63_async_count_refuted_ping); C63_async_count_partial says exactly when it has a count. The case loop, the blocking get_case_count and update_reports are proved for every input."
 ],
 "C64": [
  "partial",
  "The code refutes that a Close is answered (C64_refuted_close_unanswered); C64_close_only_from_user says it never is. Everything else is proved for every input and every user."
 ],
 "C65": [
  "partial",
  "The code refutes that no data follows a Close (C65_refuted_data_after_close); C65_no_data_after_close_partial shows it while the peer sends no Close. Everything else is proved for every input and every user."
 ],
 "C66": [
  "partial",
  "The code refutes that causes are always kept (C66_refuted_foreign_found) and that a receive error shows which rule was broken (C66_refuted_receive_text); C66_foreign_found_partial lists the conversions that keep the cause."
 ],
 "C67": [
  "proved",
  "All four pairs of blocking and async programs; C67_safe, C67_both_connect, C67_no_deadlock, C67_never_too_late, C67_deadlock_is_the_programs, C67_nobody_left_waiting (any two programs in any state)."
 ],
 "C68": [
  "proved",
  "C68_request_lines, C68_request_sent, C68_async_request_sent, C68_accept_sent, C68_reject_sent, C68_async_accept_sent, C68_async_reject_sent; C68_plain_request, C68_plain_response, C68_plain_conversation. Relies on hyper's printer replacing line breaks in values (trusted)."
 ],
 "C69": [
  "partial",
  "Refuted by raw header lines that are not UTF-8 (C69_refuted: connecting, accepting and refusing, blocking and async). Exactly when: C69_connect_panics, C69_async_connect_exactly, C69_accept_exactly, C69_async_accept_exactly, C69_reject_exactly, C69_async_reject_exactly. Under the hypothesis that the program's headers are text: C69_connect_partial, C69_async_connect_partial, C69_accept_partial, C69_accept_parsed_partial, C69_async_accept_partial. Without any: C69_await_head, C69_poll_head, C69_send, C69_async_send, C69_client_never_panics. The memory of the machine is not modelled beyond the capacity overflow of Vec."
 ],
 "C70": [
  "partial",
  "C70_blocking_server and C70_blocking_client are full; the async side is refuted (C70_refuted_async: for every bound there is an input that exceeds it), C70_async_partial says exactly what is held while waiting. The size of hyper's buffer is a trusted fact."
 ],
 "C71": [
  "proved",
  "C71_read_buffer, C71_frame_stream, C71_waits_short, C71_async_server, C71_async_client, C71_write_queue. The reads are those of the script (at most K bytes each); tokio's reserve policy is not modelled."
 ],
 "C72": [
  "partial",
  "C72_blocking, C72_async, C72_decoder say what every call reports; C72_spec_total and C72_spec_unique show that the specification answers every tape in one way; C72_async_stuck covers bad headers and frames above the limit on the async side. C72_async leaves out runs that report the message limit: what is reported then depends on the chunks (C22, C23); C72_decoder covers them per call. The claim that only sent messages are delivered is refuted by C72_refuted_hole and C72_refuted_smuggled."
 ],
 "C73": [
  "partial",
  "C73_in_turn, C73_read_then_receive, C73_to_end_sizes, C73_write_pattern, C73_read_pattern, C73_transformed, C73_shutdown_receiver, C73_shutdown_sender prove everything but the documented form of into_stream, which C73_refuted_into_stream refutes for every client with unread bytes. What shutdown does to a socket is trusted."
 ],
 "C74": [
  "proved",
  "C74_safe, C74_ends_or_jams (nothing else can go wrong), C74_who_jams, C74_enough_room, C74_turns, C74_one_way. C74_both_talk and C74_refuted show that the condition is needed: for every room there are programs that never finish under any schedule."
 ],
 "C75": [
  "proved",
  "C75_safe for every schedule, C75_answered and C75_ends for every fair one, also with room for no byte at all (contrast C74_refuted: the client has a thread that always receives). C75_same_server ties the stepwise server thread to serverLoop of C48 and C53. From the end of the handshake on; transports take what they are given (Willing)."
 ],
 "C76": [
  "partial",
  "Order, exactly-once and independence hold in every world for both programs (C76_order, C76_async_order, C76_requests_distinct), for fewer than 2^64-1 cases. The async program goes on whatever happens in a case (C76_async_order). Missing for the full claim, because the code refutes it: the blocking program panics at a case whose connection is refused, and runs no later case (C76_refuted_refused_case); a server that announces 2^64-1 cases makes both panic (C76_refuted_largest). C76_all_cases_partial: if the server takes every connection, all cases are run whatever is sent in them."
 ],
 "C77": [
  "partial",
  "C77_safe: order, contents and the absence of failures hold for every schedule and every amount of room; the client ends only after the server, with everything seen. C77_says: the same byte for byte. C77_answered_or_stuck and C77_ends_or_stuck: under every fair schedule every line is answered and both end, or the two are stuck in exactly one way (both hold a message their full sinks do not take, and the network is full both ways). Missing for the full claim, because the code refutes it: `forward` does not read while it waits to send, so whatever the room some input gets the two stuck forever (C77_refuted_never_ends, C77_can_get_stuck, C77_stuck_forever). C77_ends_partial: they are never stuck when what is said before /close is shorter than the sink's 8192 bytes and the room together, in either direction."
 ],
 "C78": [
  "proved",
  "C78_where and C78_ssl_secure hold in any world; C78_requests gives the requests byte for byte; C78_unconnected covers every connection that fails, C78_not_split the one that cannot be split; C78_served, C78_async_served and C78_ssl_served join the handshake to the programs of C53, C64 and C65, for servers that answer and then send anything."
 ],
 "C79": [
  "proved",
  "C79_safe and C79_says hold under every schedule; C79_connects, C79_answered and C79_ends under every fair one. Joins the handshake (C35, C52, C67) to the dialogue of the two programs (C75)."
 ],
 "C80": [
  "partial",
  "C80_safe and C80_says hold under every schedule and every amount of room; C80_connects under every fair one. C80_answered_or_stuck and C80_ends_or_stuck: every line is answered and both end, or the two are stuck as in C77. Missing for the full claim, because the code refutes it: they can get stuck after a faultless handshake (C80_refuted_never_ends, C80_can_get_stuck, C80_stuck_forever). C80_ends_partial: not when what is said before /close is short."
 ],
 "C81": [
  "proved",
  "C81_safe, C81_deterministic, C81_everything_happens, C81_same_end and C81_rests_or_goes_on for all pairs of programs; C81_server_says and C81_server_answers for examples/server.rs and a client that does what it likes."
 ],
 "C82": [
  "proved",
  "C82_safe, C82_deterministic, C82_both_connect, C82_everything_happens, C82_same_end and C82_rests_or_goes_on for all pairs of programs; C82_server_says and C82_server_answers for examples/server.rs and a client that does what it likes."
 ],
 "C83": [
  "proved",
  "C83_heeds, C83_deterministic, C83_writes, C83_goes_on and C83_everything_happens for all programs and all bytes; C83_short_streams: when an async client is included; C83_server_says, C83_server_writes and C83_server_ends for examples/server.rs."
 ],
 "C84": [
  "proved",
  "C84_heeds, C84_deterministic, C84_writes, C84_waits, C84_decides, C84_goes_on, C84_everything_happens for all programs; C84_server_lets_in, C84_async_server_lets_in, C84_client_connects, C84_async_client_connects say who is let in; C84_clearcut and C84_refuted_blank_lines delimit the async part; C84_server_says and C84_server_ends are about examples/server.rs."
 ],
 "C85": [
  "proved",
  "C85_written, C85_gone, C85_does, C85_deterministic; C85_answers says which requests get which bytes."
 ],
 "C86": [
  "partial",
  "C86_alone, C86_written and C86_gone hold for everybody; C86_served_partial and C86_deterministic if nobody in front dawdles; C86_blocked and C86_refuted_everybody show that the condition is needed."
 ],
 "C87": [
  "partial",
  "C87_blocking_partial, C87_async_partial and C87_no_panic_partial hold if the limits leave room (C87_room: the defaults on 32 bits, all limits on 64); C87_refuted_crash shows what happens on 32 bits with frames of 2^31 bytes allowed."
 ],
 "C88": [
  "partial",
  "C88_written_partial, C88_gone_partial, C88_does_partial and C88_deterministic_partial need bytes that settle what the library makes of them (C88_unmistakable says which do for hyper), and the last one that no error comes; C88_refuted_lost: otherwise an answer can be lost. C88_greets_partial: the 101 and the greeting never are. C88_keeps and C88_final hold for all bytes."
 ],
 "C89": [
  "partial",
  "C89_alone is complete. C89_written_partial, C89_gone_partial, C89_greets_partial, C89_served_partial and C89_deterministic_partial ask of the peer's own bytes what C88 asks, and nothing of the others; C89_refuted_lost: two peers send the same bytes, one gets less. C89_keeps and C89_final hold for all bytes."
 ],
 "C90": [
  "partial",
  "The claim that the callers do not affect each other is false: C90_refuted_everybody, and in general C90_crashes_partial and C90_stopped. C90_alone and C90_answers are complete; C90_written_partial, C90_gone_partial, C90_crash_partial, C90_served_partial, C90_deterministic_partial, C90_upgrades_partial and C90_crashes_partial need bytes that settle what the library makes of them (C90_unclouded says which do for hyper), C90_served_partial and C90_deterministic_partial also that everybody's bytes begin like an opening handshake. C90_keeps and C90_final hold for all bytes."
 ]
}