{
 "claims": [
  {
   "property": "C01",
   "status": "proved",
   "theorems": [
    "WS.C01_sent_bytes_are_rfc_frame",
    "WS.C01_crate_types_lawful",
    "WS.C01_new_dataframe",
    "WS.C01_layout_unambiguous"
   ],
   "note": "Any transport script, any implementor of the frame trait that keeps its contract, payloads below 2^63 bytes."
  },
  {
   "property": "C02",
   "status": "proved",
   "theorems": [
    "WS.C02_roundtrip_blocking",
    "WS.C02_roundtrip_blocking_unlimited",
    "WS.C02_roundtrip_async",
    "WS.C02_fragmented_control_is_sent_but_refused"
   ],
   "note": "Blocking with and without limit, async. Control frames must be final (witness theorem shows why)."
  },
  {
   "property": "C03",
   "status": "proved",
   "theorems": [
    "WS.C03_reader_sound",
    "WS.C03_reader_sound_unlimited",
    "WS.C03_decoder_exact"
   ],
   "note": "Any transport script (blocking); both directions for the async decoder."
  },
  {
   "property": "C04",
   "status": "proved",
   "theorems": [
    "WS.C04_malformed_never_read",
    "WS.C04_malformed_never_decoded",
    "WS.C04_malformed_is_an_error"
   ],
   "note": "Never read on any transport; an error once the header has arrived."
  },
  {
   "property": "C05",
   "status": "proved",
   "theorems": [
    "WS.C05_mask_data",
    "WS.C05_masker_any_split",
    "WS.C05_masker_short_write_corrupts"
   ],
   "note": "Over a vector endpoint, which is the only use in the crate; short-write corruption shown by a witness theorem."
  },
  {
   "property": "C06",
   "status": "proved",
   "theorems": [
    "WS.C06_mask_bit_matches",
    "WS.C06_wrong_direction_refused",
    "WS.C06_unchecked"
   ],
   "note": "Mask bit of every returned frame matches the role; legal frames of the wrong direction are consumed and refused with the matching error."
  },
  {
   "property": "C07",
   "status": "proved",
   "theorems": [
    "WS.C07_size_exact",
    "WS.C07_size_formula",
    "WS.C07_encode_into_buffer"
   ],
   "note": "Encoding into the async buffer includes every spare capacity and allocator growth."
  },
  {
   "property": "C08",
   "status": "proved",
   "theorems": [
    "WS.C08_refused_send_writes_nothing",
    "WS.C08_refused_messages"
   ],
   "note": "Exact refusal condition; the sink is unchanged."
  },
  {
   "property": "C09",
   "status": "proved",
   "theorems": [
    "WS.C09_blocking_never_panics",
    "WS.C09_new_receivers_qualify",
    "WS.C09_blocking_frames_never_panic",
    "WS.C09_async_never_panics",
    "WS.C09_async_frames_never_panic"
   ],
   "note": "No execution of either receiver (blocking or async, frames or messages, any script of reads/errors) panics, for every byte string the peer may send, with dataframe limit below 2^63 and total input below isize::MAX. usize overflow of the running message length is not modelled as a panic."
  },
  {
   "property": "C10",
   "status": "proved",
   "theorems": [
    "WS.C10_limit_respected",
    "WS.C10_refused_before_payload",
    "WS.C10_limits_capped",
    "WS.C10_unlimited_reader_can_panic",
    "WS.C10_limit_respected_async",
    "WS.C10_limit_respected_receiver"
   ],
   "note": "Blocking and async with limits. The unlimited reader can panic on a huge length (witness theorem). Bounds of returned frames for every history of either endpoint (C10_limit_respected_async, C10_limit_respected_receiver)."
  },
  {
   "property": "C11",
   "status": "proved",
   "theorems": [
    "WS.C11_assembly_exact",
    "WS.C11_assembly_exact_borrowed",
    "WS.C11_payload_is_concatenation",
    "WS.C11_assembly_total"
   ],
   "note": "Exact characterisation of success, in both the borrowed and the owned form; never panics within the allocation limit."
  },
  {
   "property": "C12",
   "status": "proved",
   "theorems": [
    "WS.C12_validator_exact",
    "WS.C12_delivered_text_valid_blocking",
    "WS.C12_delivered_text_valid_async",
    "WS.C12_valid_text_accepted"
   ],
   "note": "Validator equals the RFC 3629 grammar; delivered text is valid on any transport and any chunking; valid text is accepted."
  },
  {
   "property": "C13",
   "status": "proved",
   "theorems": [
    "WS.C13_owned_roundtrip",
    "WS.C13_borrowed_roundtrip",
    "WS.C13_same_bytes",
    "WS.C13_conversion_always_valid",
    "WS.C13_handbuilt_can_lose"
   ],
   "note": "All owned messages, and the exact borrowed messages that survive."
  },
  {
   "property": "C14",
   "status": "proved",
   "theorems": [
    "WS.C14_message_survives_wire_blocking",
    "WS.C14_message_survives_wire_async",
    "WS.C14_borrowed_message_survives_wire"
   ],
   "note": "Serialising and reading back gives the same message: blocking and async receivers, owned and borrowed messages, any segmentation and any following bytes. Sendable: text is UTF-8, control payload at most 125 bytes, payload within the receiver's frame limit."
  },
  {
   "property": "C15",
   "status": "proved",
   "theorems": [
    "WS.C15_close_payload",
    "WS.C15_reason_utf8",
    "WS.C15_close_data_inverse"
   ],
   "note": "All payload lengths 0, 1 and above."
  },
  {
   "property": "C16",
   "status": "proved",
   "theorems": [
    "WS.C16_into_pong",
    "WS.C16_pong_frame"
   ],
   "note": "All message kinds."
  },
  {
   "property": "C17",
   "status": "proved",
   "theorems": [
    "WS.C17_fragments_and_controls_blocking",
    "WS.C17_fragments_and_controls_any_state"
   ],
   "note": "Any schedule of fragments and interleaved control frames, from any receiver state, on any segmentation; also with held fragments to start."
  },
  {
   "property": "C18",
   "status": "proved",
   "theorems": [
    "WS.C18_fragments_and_controls_async"
   ],
   "note": "Same statement for the async codec, on any script of chunks and pauses."
  },
  {
   "property": "C19",
   "status": "proved",
   "theorems": [
    "WS.C19_illegal_frame_refused_blocking",
    "WS.C19_illegal_frame_refused_async"
   ],
   "note": "Exact error text and unchanged held fragments, blocking and async."
  },
  {
   "property": "C20",
   "status": "proved",
   "theorems": [
    "WS.C20_bounds_blocking",
    "WS.C20_bounds_async"
   ],
   "note": "Exact delivered/held bounds for both receivers up to the first reported limit error, over any sequence of receive calls."
  },
  {
   "property": "C21",
   "status": "partial",
   "theorems": [
    "WS.C21_growth_total_blocking_partial",
    "WS.C21_growth_total_async_partial",
    "WS.C21_refused_message_delivered_blocking",
    "WS.C21_growth_per_call_blocking_partial",
    "WS.C21_growth_per_call_async_partial",
    "WS.C21_refuted_blocking",
    "WS.C21_refuted_async"
   ],
   "note": "The property is false for the code: after a limit error the buffered fragments are kept and further fragments keep being appended (C21_refuted_blocking, C21_refuted_async), and a final frame still delivers the refused message (C21_refused_message_delivered_blocking). Proved instead: what one call can add after an error, and for any number of calls on any transport that the excess over the bounds of C20 is at most one frame per ignored error (C21_growth_total_*)."
  },
  {
   "property": "C22",
   "status": "proved",
   "theorems": [
    "WS.C22_frame_stream_chunking",
    "WS.C22_incomplete_consumes_nothing",
    "WS.C22_answers_stable"
   ],
   "note": "Any script of non-empty chunks and not-ready events, any number of items."
  },
  {
   "property": "C23",
   "status": "partial",
   "theorems": [
    "WS.C23_extremes",
    "WS.C23_refused_always",
    "WS.C23_one_by_one",
    "WS.C23_delivered_or_limit",
    "WS.C23_certain_refusal",
    "WS.C23_within_limit",
    "WS.C23_at_once_refused",
    "WS.C23_refuted",
    "WS.C23_message_stream_chunking_partial"
   ],
   "note": "The claim is false as stated: C23_refuted gives a message accepted in one chunking and refused in another. The dependence is described completely: the items of any chunking are those of the bytes arriving one by one up to a limit error (C23_extremes), a message that fits with 64 bytes for its last frame is delivered one by one (C23_one_by_one) and one that does not is refused in every chunking (C23_certain_refusal), and one that fits with 64 bytes per frame is delivered in every chunking (C23_within_limit), which is exact for one chunk (C23_at_once_refused). The partial theorem covers every stream on which the message size limit is not reported."
  },
  {
   "property": "C24",
   "status": "proved",
   "theorems": [
    "WS.C24_segmentation_independent",
    "WS.C24_segmentation_independent_frames"
   ],
   "note": "Any two clean segmentations of the same bytes give the same results and end state, for messages and for raw frames."
  },
  {
   "property": "C25",
   "status": "proved",
   "theorems": [
    "WS.C25_agree_until_limit",
    "WS.C25_limits_differ",
    "WS.C25_blocking_and_async_agree"
   ],
   "note": "Both receivers report the same messages up to the first error, which is the same up to naming, on any byte string and any cutting, while neither reports the message-size limit (there they differ: >= against >, see DESIGN.md). On all streams both report the same up to the place where one of them reports the limit (C25_agree_until_limit); C25_limits_differ shows that they do differ there, in both directions."
  },
  {
   "property": "C26",
   "status": "proved",
   "theorems": [
    "WS.C26_blocking_to_blocking",
    "WS.C26_blocking_to_async",
    "WS.C26_async_to_blocking",
    "WS.C26_async_to_async",
    "WS.C26_sends_succeed",
    "WS.C26_flush_empties_queue"
   ],
   "note": "All four combinations of blocking/async sender and receiver, any list of sendable messages and keys, any transport behaviour on the sending side (async: including failures), any segmentation on the receiving side; plus: sends over a willing transport succeed and flush empties the queue."
  },
  {
   "property": "C27",
   "status": "proved",
   "theorems": [
    "WS.C27_truncated_stream_blocking",
    "WS.C27_truncated_stream_async"
   ],
   "note": "Cut inside a frame: the blocking receiver reports no data and delivers only the complete messages; the async stream reports leftover bytes."
  },
  {
   "property": "C28",
   "status": "partial",
   "theorems": [
    "WS.C28_blocking_exact_loss",
    "WS.C28_blocking_resent",
    "WS.C28_refuted_blocking",
    "WS.C28_retry_at_frame_boundary_partial",
    "WS.C28_async_not_ready_transparent"
   ],
   "note": "False for the blocking receiver when the transport has no data inside a frame (C28_refuted_blocking). Proved: blocking, errors at frame boundaries (also inside fragmented messages) cost nothing, and an error inside a frame costs exactly the bytes read of that frame (C28_blocking_exact_loss, any number of errors anywhere); async, not-ready answers anywhere, for any decoder."
  },
  {
   "property": "C29",
   "status": "partial",
   "theorems": [
    "WS.C29_blocking_any_history",
    "WS.C29_blocking_prefix_partial",
    "WS.C29_refuted_after_failure",
    "WS.C29_async_queue_order"
   ],
   "note": "Async: full statement, any operations and failures. Blocking: for a caller who goes on sending after a failure the statement is false (C29_refuted_after_failure); proved is what is on the wire after every history: one piece per send, whole, empty or a proper beginning of the frame according to the result reported (C29_blocking_any_history)."
  },
  {
   "property": "C30",
   "status": "proved",
   "theorems": [
    "WS.C30_split_equivalent",
    "WS.C30_split_state",
    "WS.C30_reads_independent",
    "WS.C30_writes_independent",
    "WS.C30_recv_through_buffer",
    "WS.C30_into_stream"
   ],
   "note": "Splitting is refused only when duplicating the transport handle fails (TcpStream::try_clone); that failure is an explicit input."
  },
  {
   "property": "C31",
   "status": "proved",
   "theorems": [
    "WS.C31_key_text",
    "WS.C31_accept_text",
    "WS.C31_key_round_trip",
    "WS.C31_accept_round_trip",
    "WS.C31_key_accepts_iff",
    "WS.C31_accept_accepts_iff",
    "WS.C31_key_rejects",
    "WS.C31_accept_rejects",
    "WS.C31_key_strict",
    "WS.C31_key_text_injective"
   ],
   "note": "Any base64 decoder that undoes the encoder; exact characterisation with the RFC 4648 decoder."
  },
  {
   "property": "C32",
   "status": "proved",
   "theorems": [
    "WS.C32_accept_digest",
    "WS.C32_accept_value",
    "WS.C32_same_on_both_sides"
   ],
   "note": "SHA-1 and base64 modelled as code and proved equal to independent RFC 3174 / RFC 4648 specifications."
  },
  {
   "property": "C33",
   "status": "partial",
   "theorems": [
    "WS.C33_into_ws_reports",
    "WS.C33_async_into_ws_reports",
    "WS.C33_upgraded_only_if_valid",
    "WS.C33_async_upgraded_only_if_valid",
    "WS.C33_parsed_only_if_valid",
    "WS.C33_first_failure_map",
    "WS.C33_first_failure",
    "WS.C33_accepts_exactly",
    "WS.C33_accepts_iff_partial",
    "WS.C33_refuted_version"
   ],
   "note": "Exact acceptance condition and first failing condition proved for all received requests; the property as stated is refuted for version headers that are repeated, empty or not UTF-8 (they are ignored), and holds for all others. into_ws and its async form report exactly this decision for any arrival."
  },
  {
   "property": "C34",
   "status": "partial",
   "theorems": [
    "WS.C34_connect_reports",
    "WS.C34_async_connect_reports",
    "WS.C34_connected_only_if_valid",
    "WS.C34_async_connected_only_if_valid",
    "WS.C34_first_failure",
    "WS.C34_status_reported",
    "WS.C34_accept_text",
    "WS.C34_no_key",
    "WS.C34_accepts_exactly",
    "WS.C34_accepts_iff_partial",
    "WS.C34_refuted_connection"
   ],
   "note": "The response's Connection header is not looked at: the client checks its own request (C34_refuted_connection). Everything else of the decision is exact, with the first failing condition reported. connect_on and its async form report exactly this decision for any arrival."
  },
  {
   "property": "C35",
   "status": "proved",
   "theorems": [
    "WS.C35_request_asks",
    "WS.C35_request_asks_user_key",
    "WS.C35_server_takes",
    "WS.C35_async_server_takes",
    "WS.C35_server_answers",
    "WS.C35_async_server_answers",
    "WS.C35_client_takes",
    "WS.C35_async_client_takes",
    "WS.C35_handshake",
    "WS.C35_async_handshake",
    "WS.C35_protocols"
   ],
   "note": "Request side, server side and client side are separate theorems about header lines and are combined for two blocking ends and for two async ends. Header lines, target and head size are assumed to be legal HTTP (Sendable, Target, maxBufferSize)."
  },
  {
   "property": "C36",
   "status": "proved",
   "theorems": [
    "WS.C36_accept_methods",
    "WS.C36_async_accept_methods",
    "WS.C36_required_headers",
    "WS.C36_custom_kept",
    "WS.C36_plain_kept",
    "WS.C36_used_in_order"
   ],
   "note": "For every history of use_* calls and custom headers; the header map invariant (one entry per name) is hyper's."
  },
  {
   "property": "C37",
   "status": "partial",
   "theorems": [
    "WS.C37_request_sent",
    "WS.C37_async_request_sent",
    "WS.C37_upgrade_lines",
    "WS.C37_host_line",
    "WS.C37_fresh_key",
    "WS.C37_user_key_partial",
    "WS.C37_default_version",
    "WS.C37_user_version_partial",
    "WS.C37_refuted_key",
    "WS.C37_refuted_version"
   ],
   "note": "Proved for every sequence of builder calls: the bytes sent, the Upgrade/Connection/Host lines, the fresh key and the default version. Partial: a key or version set by the caller is kept only if it is not cleared or overwritten afterwards (C37_refuted_key, C37_refuted_version show that the request can then lack it)."
  },
  {
   "property": "C38",
   "status": "partial",
   "theorems": [
    "WS.C38_protocols_partial",
    "WS.C38_extensions_partial",
    "WS.C38_protocols_sent_partial",
    "WS.C38_extensions_sent_partial",
    "WS.C38_custom_protocols",
    "WS.C38_refuted_unreadable"
   ],
   "note": "Proved for every sequence of builder calls that touches the header only through add/clear; a header set by the caller that does not parse turns add into a no-op (C38_refuted_unreadable)."
  },
  {
   "property": "C39",
   "status": "partial",
   "theorems": [
    "WS.C39_server_limits",
    "WS.C39_server_defaults",
    "WS.C39_async_server_limits",
    "WS.C39_async_server_defaults",
    "WS.C39_async_client_limits",
    "WS.C39_client_limits_partial",
    "WS.C39_refuted_blocking_client"
   ],
   "note": "The blocking client's message limit is set to the data frame limit (C39_refuted_blocking_client). Server, async server and async client are exact."
  },
  {
   "property": "C40",
   "status": "proved",
   "theorems": [
    "WS.C40_reached",
    "WS.C40_async_reached",
    "WS.C40_every_call",
    "WS.C40_no_host",
    "WS.C40_no_downgrade",
    "WS.C40_tls_or_nothing"
   ],
   "note": "Name resolution, TCP and TLS are parameters; the model fixes which of them is called, with which host and port."
  },
  {
   "property": "C41",
   "status": "partial",
   "theorems": [
    "WS.C41_parsed",
    "WS.C41_pending_read",
    "WS.C41_into_ws",
    "WS.C41_accept",
    "WS.C41_server",
    "WS.C41_client",
    "WS.C41_async_into_ws_partial",
    "WS.C41_async_no_head",
    "WS.C41_async_accept",
    "WS.C41_async_reject",
    "WS.C41_async_client_partial",
    "WS.C41_refuted_reject",
    "WS.C41_refuted_failed_accept",
    "WS.C41_refuted_bare_lf"
   ],
   "note": "Proved for every transport script, parser, call history and limit: blocking server and client, async server and client when the head ends at its first CR LF CR LF. Refuted where it fails: blocking reject and a failed blocking accept drop the bytes read ahead; an async server loses bytes after a head ended by bare LFs."
  },
  {
   "property": "C42",
   "status": "partial",
   "theorems": [
    "WS.C42_takes_head",
    "WS.C42_waits",
    "WS.C42_no_head",
    "WS.C42_any_transport_partial",
    "WS.C42_any_chunking_partial",
    "WS.C42_concrete_chunking",
    "WS.C42_refuted_blank_lines",
    "WS.C42_concrete_chunking_response"
   ],
   "note": "Proved for every buffer, transport script and chunking when the parser does not ask for more after a blank line; for the concrete parser that is every head with a byte other than CR and LF (C42_concrete_chunking). Heads of line ends alone are chunking dependent (C42_refuted_blank_lines)."
  },
  {
   "property": "C43",
   "status": "partial",
   "theorems": [
    "WS.C43_round_trip_partial",
    "WS.C43_round_trip_iff",
    "WS.C43_text_stable",
    "WS.C43_refuted"
   ],
   "note": "The full property is false (C43_refuted): parameter values are glued to the names. Proved: exactly what comes back, the round trip holds exactly for lists without values, and the text is stable."
  },
  {
   "property": "C44",
   "status": "proved",
   "theorems": [
    "WS.C44_parse_spec",
    "WS.C44_round_trip",
    "WS.C44_several_lines",
    "WS.C44_stable",
    "WS.C44_comma_needed"
   ],
   "note": "Also an exact specification of the parser on arbitrary lines."
  },
  {
   "property": "C45",
   "status": "proved",
   "theorems": [
    "WS.C45_reject_methods",
    "WS.C45_async_reject_methods",
    "WS.C45_reject",
    "WS.C45_accept",
    "WS.C45_async_reject",
    "WS.C45_async_accept",
    "WS.C45_into_ws_silent",
    "WS.C45_async_into_ws_silent",
    "WS.C45_upgrade_has_key",
    "WS.C45_async_upgrade_has_key",
    "WS.C45_parsed_upgrade_has_key"
   ],
   "note": "Blocking and async, every write script; also that reading and validating the request writes nothing."
  },
  {
   "property": "C46",
   "status": "proved",
   "theorems": [
    "WS.C46_opcode_table",
    "WS.C46_predicates"
   ],
   "note": "All 16 opcodes and all message kinds."
  },
  {
   "property": "C47",
   "status": "proved",
   "theorems": [
    "WS.C47_blocking_blocking",
    "WS.C47_blocking_async",
    "WS.C47_async_blocking",
    "WS.C47_async_async"
   ],
   "note": "Four theorems, one per combination of blocking and async ends. Sinks may write partially and be interrupted (blocking) or be not ready (async) but do not fail; sources deliver bytes and then end."
  },
  {
   "property": "C48",
   "status": "partial",
   "theorems": [
    "WS.C48_autobahn_any_input",
    "WS.C48_autobahn_echoes",
    "WS.C48_server_any_input",
    "WS.C48_server_echoes_partial",
    "WS.C48_server_panics_at_end",
    "WS.C48_async_any_input",
    "WS.C48_async_echoes_partial",
    "WS.C48_async_loses_replies",
    "WS.C48_program_autobahn",
    "WS.C48_program_server",
    "WS.C48_program_server_refuses",
    "WS.C48_program_no_clone",
    "WS.C48_blocking_client_hears_echo",
    "WS.C48_async_client_hears_echo",
    "WS.C48_program_async_autobahn",
    "WS.C48_program_async_server",
    "WS.C48_program_async_server_refuses",
    "WS.C48_blocking_client_hears_async_echo",
    "WS.C48_async_client_hears_async_echo"
   ],
   "note": "autobahn-server.rs and autobahn-client.rs: full claim for every input. async-autobahn-server.rs: full claim for a Close or the end of the stream between frames; on a stream error C48_async_loses_replies shows a reply that was due and no Close (C48_async_any_input says exactly what is written). server.rs: full claim up to the Close; C48_server_panics_at_end proves the panic without one. Round trips with all four client/server combinations."
  },
  {
   "property": "C49",
   "status": "proved",
   "theorems": [
    "WS.C49_blocking_items",
    "WS.C49_async_isolated",
    "WS.C49_async_each_once",
    "WS.C49_async_grows",
    "WS.C49_async_served",
    "WS.C49_async_schedule_irrelevant"
   ],
   "note": "Blocking: the n-th item is the n-th call's own result. Async: buffer_unordered modelled as a transition system over arrivals and polls; isolation, exactly-once, no starvation, schedule independence."
  },
  {
   "property": "C50",
   "status": "partial",
   "theorems": [
    "WS.C50_autobahn_server_survives",
    "WS.C50_server_survives",
    "WS.C50_bad_call_ignored",
    "WS.C50_async_server_goes_on",
    "WS.C50_async_server_survives",
    "WS.C50_async_autobahn_survives_partial",
    "WS.C50_async_autobahn_stops",
    "WS.C50_async_autobahn_refuted"
   ],
   "note": "autobahn-server.rs, server.rs and async-server.rs: full claim. async-autobahn-server.rs stops at the first refused request: C50_async_autobahn_stops, C50_async_autobahn_refuted; C50_async_autobahn_survives_partial holds while nobody is refused."
  },
  {
   "property": "C51",
   "status": "proved",
   "theorems": [
    "WS.C51_blocking_answers_at_once",
    "WS.C51_dataframe_answers_at_once",
    "WS.C51_blocking_delivers_at_once",
    "WS.C51_async_answers_at_once",
    "WS.C51_async_delivers_at_once",
    "WS.C51_async_waits_for_the_transport",
    "WS.C51_flush_waits_for_the_transport",
    "WS.C51_send_waits_for_the_transport"
   ],
   "note": "Locality of every reading function (the answer on s ++ t is the answer on s) combined with C17/C18; NotReady only after the transport's WouldBlock, with no complete frame buffered, after any number of polls; same for the sink."
  },
  {
   "property": "C52",
   "status": "partial",
   "theorems": [
    "WS.C52_server_answers_at_once",
    "WS.C52_client_answers_at_once",
    "WS.C52_async_server_answers_at_once_partial",
    "WS.C52_async_client_answers_at_once_partial",
    "WS.C52_async_server_refuted"
   ],
   "note": "Blocking server and client: full claim. Async: holds unless hyper wants more after the first blank line; C52_async_server_refuted shows the async server waiting with a complete request in its buffer when a blank line precedes it."
  },
  {
   "property": "C53",
   "status": "proved",
   "theorems": [
    "WS.C53_queue",
    "WS.C53_says",
    "WS.C53_user",
    "WS.C53_peer",
    "WS.C53_nobody_else",
    "WS.C53_goodbye",
    "WS.C53_silent_afterwards",
    "WS.C53_ends",
    "WS.C53_floods_after_eof",
    "WS.C53_with_server"
   ],
   "note": "Threads as an arbitrary list of turns over the model of split, the mpsc channel as a list; invariant ChatInv. C53_floods_after_eof records that end of input on stdin is not noticed."
  },
  {
   "property": "C54",
   "status": "proved",
   "theorems": [
    "WS.C54_safe",
    "WS.C54_no_deadlock",
    "WS.C54_deadlock_is_the_programs",
    "WS.C54_never_too_late"
   ],
   "note": "Two Party states and the bytes between them; a schedule is any list (or infinite sequence) of events. The network holds any number of bytes in flight; writes that are refused with would-block are retried by the caller (async) or wait (blocking)."
  },
  {
   "property": "C55",
   "status": "proved",
   "theorems": [
    "WS.C55_message_was_on_the_wire",
    "WS.C55_blocking",
    "WS.C55_async",
    "WS.C55_one_reading"
   ],
   "note": "Converse of C17/C24: soundness from any state on any transport, for both stacks; C55_one_reading gives uniqueness."
  },
  {
   "property": "C56",
   "status": "proved",
   "theorems": [
    "WS.C56_calls_mixed",
    "WS.C56_frames_set_aside"
   ],
   "note": "Client.run over an arbitrary list of calls; C56_frames_set_aside relates the answers to C55's Carried."
  },
  {
   "property": "C57",
   "status": "proved",
   "theorems": [
    "WS.C57_frame",
    "WS.C57_blocking",
    "WS.C57_decoder",
    "WS.C57_async",
    "WS.C57_peer_is_to_blame"
   ],
   "note": "Causes listed with their errors in Spec/Blame.lean; C57_frame, C57_blocking, C57_decoder, C57_async. The theorem names one cause that is present; where a frame has two faults it does not say which is reported first (C04 gives the order for headers)."
  },
  {
   "property": "C58",
   "status": "partial",
   "theorems": [
    "WS.C58_request_line",
    "WS.C58_fragment_stays_home",
    "WS.C58_host_partial",
    "WS.C58_refuted_host_port",
    "WS.C58_authorization_partial",
    "WS.C58_credentials_determined",
    "WS.C58_no_user",
    "WS.C58_refuted_encoded_credentials",
    "WS.C58_refuted_password_only"
   ],
   "note": "Refuted in three corners, each with a theorem: an explicit port 80 or 443 is left out of Host even if it is not the default of the scheme (C58_refuted_host_port, hyper's Host formatting); percent-encoded credentials are sent undecoded (C58_refuted_encoded_credentials); a password without user name is not sent (C58_refuted_password_only). Proved outside these corners for every URL and every sequence of builder calls."
  },
  {
   "property": "C59",
   "status": "partial",
   "theorems": [
    "WS.C59_server_shows_what_it_sent",
    "WS.C59_async_server_shows_what_it_sent",
    "WS.C59_server_lists",
    "WS.C59_async_server_lists",
    "WS.C59_client_lists_partial",
    "WS.C59_async_client_lists_partial",
    "WS.C59_refuted_values",
    "WS.C59_requested_extensions_partial",
    "WS.C59_requested_basics",
    "WS.C59_requested_origin",
    "WS.C59_no_origin",
    "WS.C59_both_ends_partial",
    "WS.C59_async_async_partial",
    "WS.C59_blocking_async_partial",
    "WS.C59_async_blocking_partial"
   ],
   "note": "Refuted for extension parameters with values, which arrive glued to the name (C59_refuted_values, following C43): the two ends disagree. Everything else proved: C59_both_ends_partial and C59_{blocking_async,async_blocking,async_async}_partial for the four pairs of ends, C59_server_lists, C59_client_lists_partial, C59_requested_*; list entries must be writable as list items (no comma, no blanks around, UTF-8)."
  },
  {
   "property": "C60",
   "status": "proved",
   "theorems": [
    "WS.C60_accept",
    "WS.C60_async_accept",
    "WS.C60_parsed"
   ],
   "note": "Outcomes of both servers' accept listed completely; what the async buffer contains is stated by C41 and C42, including their refuted corner."
  },
  {
   "property": "C61",
   "status": "proved",
   "theorems": [
    "WS.C61_identifiers",
    "WS.C61_clients_are_upgrades",
    "WS.C61_one_sender",
    "WS.C61_one_receiver",
    "WS.C61_wire",
    "WS.C61_greeting",
    "WS.C61_heard"
   ],
   "note": "The executor only decides whose turn it is; every order of turns is covered."
  },
  {
   "property": "C62",
   "status": "partial",
   "theorems": [
    "WS.C62_stays_partial",
    "WS.C62_hears_everyone_partial",
    "WS.C62_greets_on_partial",
    "WS.C62_ends_only_for_cause_partial",
    "WS.C62_greets_everyone_partial",
    "WS.C62_one_at_a_time",
    "WS.C62_over_is_over",
    "WS.C62_refuted_busy",
    "WS.C62_refuted_bad_message",
    "WS.C62_refuted_silent",
    "WS.C62_refuted_bad_handshake"
   ],
   "note": "The code refutes the full claim (C62_refuted_busy, C62_refuted_bad_message, C62_refuted_silent, C62_refuted_bad_handshake). Proved: with a send handler that keeps up the program ends only for a bad handshake or a failing stream, never with an invalid id, and not at all if every client sends whole messages (C62_stays_partial); then, under every fair schedule without end, every client is heard to the end of its stream (C62_hears_everyone_partial) and greeted again and again (C62_greets_on_partial); a round greets everyone once; streams are read one at a time."
  },
  {
   "property": "C63",
   "status": "partial",
   "theorems": [
    "WS.C63_case_any_input",
    "WS.C63_case_echoes",
    "WS.C63_parse_exact",
    "WS.C63_count_any_input",
    "WS.C63_count_of_traffic",
    "WS.C63_async_count_partial",
    "WS.C63_async_count_refuted_ping",
    "WS.C63_reports_any_input",
    "WS.C63_async_reports",
    "WS.C63_async_reports_any_transport"
   ],
   "note": "The code refutes the full claim for the async get_case_count (C63_async_count_refuted_ping); C63_async_count_partial says exactly when it has a count. The case loop, the blocking get_case_count and update_reports are proved for every input."
  },
  {
   "property": "C64",
   "status": "partial",
   "theorems": [
    "WS.C64_any_input",
    "WS.C64_traffic",
    "WS.C64_typed",
    "WS.C64_typed_sendable",
    "WS.C64_no_data_after_close",
    "WS.C64_close_only_from_user",
    "WS.C64_refuted_close_unanswered",
    "WS.C64_user_not_starved",
    "WS.C64_pong_not_starved"
   ],
   "note": "The code refutes that a Close is answered (C64_refuted_close_unanswered); C64_close_only_from_user says it never is. Everything else is proved for every input and every user."
  },
  {
   "property": "C65",
   "status": "partial",
   "theorems": [
    "WS.C65_any_input",
    "WS.C65_traffic",
    "WS.C65_answers",
    "WS.C65_no_data_after_close_partial",
    "WS.C65_refuted_data_after_close"
   ],
   "note": "The code refutes that no data follows a Close (C65_refuted_data_after_close); C65_no_data_after_close_partial shows it while the peer sends no Close. Everything else is proved for every input and every user."
  },
  {
   "property": "C66",
   "status": "partial",
   "theorems": [
    "WS.C66_upgrade_kept",
    "WS.C66_refusals_distinct",
    "WS.C66_codec_kept",
    "WS.C66_foreign_found_partial",
    "WS.C66_refuted_foreign_found",
    "WS.C66_url_text",
    "WS.C66_plain_io",
    "WS.C66_connect_text",
    "WS.C66_receive_kind",
    "WS.C66_refuted_receive_text"
   ],
   "note": "The code refutes that causes are always kept (C66_refuted_foreign_found) and that a receive error shows which rule was broken (C66_refuted_receive_text); C66_foreign_found_partial lists the conversions that keep the cause."
  },
  {
   "property": "C67",
   "status": "proved",
   "theorems": [
    "WS.C67_safe",
    "WS.C67_both_connect",
    "WS.C67_no_deadlock",
    "WS.C67_never_too_late",
    "WS.C67_deadlock_is_the_programs",
    "WS.C67_nobody_left_waiting"
   ],
   "note": "All four pairs of blocking and async programs; C67_safe, C67_both_connect, C67_no_deadlock, C67_never_too_late, C67_deadlock_is_the_programs, C67_nobody_left_waiting (any two programs in any state)."
  },
  {
   "property": "C68",
   "status": "proved",
   "theorems": [
    "WS.C68_lines_determined",
    "WS.C68_request_lines",
    "WS.C68_request_sent",
    "WS.C68_async_request_sent",
    "WS.C68_accept_sent",
    "WS.C68_reject_sent",
    "WS.C68_async_accept_sent",
    "WS.C68_async_reject_sent",
    "WS.C68_plain_request",
    "WS.C68_plain_response",
    "WS.C68_plain_conversation",
    "WS.C68_names_unprotected",
    "WS.C68_plain_blocking_async",
    "WS.C68_plain_async_blocking",
    "WS.C68_plain_async_async",
    "WS.C68_plain_no_deadlock"
   ],
   "note": "C68_request_lines, C68_request_sent, C68_async_request_sent, C68_accept_sent, C68_reject_sent, C68_async_accept_sent, C68_async_reject_sent; C68_plain_request, C68_plain_response, C68_plain_conversation. Relies on hyper's printer replacing line breaks in values (trusted)."
  },
  {
   "property": "C69",
   "status": "partial",
   "theorems": [
    "WS.C69_await_head",
    "WS.C69_poll_head",
    "WS.C69_async_connect_exactly",
    "WS.C69_connect_panics",
    "WS.C69_connect_partial",
    "WS.C69_async_connect_partial",
    "WS.C69_accept_exactly",
    "WS.C69_async_accept_exactly",
    "WS.C69_accept_partial",
    "WS.C69_accept_parsed_partial",
    "WS.C69_async_accept_partial",
    "WS.C69_reject_exactly",
    "WS.C69_async_reject_exactly",
    "WS.C69_refuted",
    "WS.C69_send",
    "WS.C69_async_send",
    "WS.C69_client_never_panics"
   ],
   "note": "Refuted by raw header lines that are not UTF-8 (C69_refuted: connecting, accepting and refusing, blocking and async). Exactly when: C69_connect_panics, C69_async_connect_exactly, C69_accept_exactly, C69_async_accept_exactly, C69_reject_exactly, C69_async_reject_exactly. Under the hypothesis that the program's headers are text: C69_connect_partial, C69_async_connect_partial, C69_accept_partial, C69_accept_parsed_partial, C69_async_accept_partial. Without any: C69_await_head, C69_poll_head, C69_send, C69_async_send, C69_client_never_panics. The memory of the machine is not modelled beyond the capacity overflow of Vec."
  },
  {
   "property": "C70",
   "status": "partial",
   "theorems": [
    "WS.C70_blocking_server",
    "WS.C70_blocking_client",
    "WS.C70_async_partial",
    "WS.C70_refuted_async"
   ],
   "note": "C70_blocking_server and C70_blocking_client are full; the async side is refuted (C70_refuted_async: for every bound there is an input that exceeds it), C70_async_partial says exactly what is held while waiting. The size of hyper's buffer is a trusted fact."
  },
  {
   "property": "C71",
   "status": "proved",
   "theorems": [
    "WS.C71_read_buffer",
    "WS.C71_waits_short",
    "WS.C71_frame_stream",
    "WS.C71_async_server",
    "WS.C71_async_client",
    "WS.C71_write_queue"
   ],
   "note": "C71_read_buffer, C71_frame_stream, C71_waits_short, C71_async_server, C71_async_client, C71_write_queue. The reads are those of the script (at most K bytes each); tokio's reserve policy is not modelled."
  },
  {
   "property": "C72",
   "status": "partial",
   "theorems": [
    "WS.C72_blocking",
    "WS.C72_async",
    "WS.C72_decoder",
    "WS.C72_spec_total",
    "WS.C72_spec_unique",
    "WS.C72_async_stuck",
    "WS.C72_refuted_hole",
    "WS.C72_refuted_smuggled"
   ],
   "note": "C72_blocking, C72_async, C72_decoder say what every call reports; C72_spec_total and C72_spec_unique show that the specification answers every tape in one way; C72_async_stuck covers bad headers and frames above the limit on the async side. C72_async leaves out runs that report the message limit: what is reported then depends on the chunks (C22, C23); C72_decoder covers them per call. The claim that only sent messages are delivered is refuted by C72_refuted_hole and C72_refuted_smuggled."
  },
  {
   "property": "C73",
   "status": "partial",
   "theorems": [
    "WS.C73_in_turn",
    "WS.C73_read_then_receive",
    "WS.C73_to_end_sizes",
    "WS.C73_write_pattern",
    "WS.C73_read_pattern",
    "WS.C73_transformed",
    "WS.C73_refuted_into_stream",
    "WS.C73_shutdown_receiver",
    "WS.C73_shutdown_sender",
    "WS.C73_shutdown"
   ],
   "note": "C73_in_turn, C73_read_then_receive, C73_to_end_sizes, C73_write_pattern, C73_read_pattern, C73_transformed, C73_shutdown_receiver, C73_shutdown_sender prove everything but the documented form of into_stream, which C73_refuted_into_stream refutes for every client with unread bytes. What shutdown does to a socket is trusted."
  },
  {
   "property": "C74",
   "status": "proved",
   "theorems": [
    "WS.C74_safe",
    "WS.C74_ends_or_jams",
    "WS.C74_who_jams",
    "WS.C74_enough_room",
    "WS.C74_turns",
    "WS.C74_one_way",
    "WS.C74_both_talk",
    "WS.C74_refuted"
   ],
   "note": "C74_safe, C74_ends_or_jams (nothing else can go wrong), C74_who_jams, C74_enough_room, C74_turns, C74_one_way. C74_both_talk and C74_refuted show that the condition is needed: for every room there are programs that never finish under any schedule."
  },
  {
   "property": "C75",
   "status": "proved",
   "theorems": [
    "WS.C75_safe",
    "WS.C75_answered",
    "WS.C75_ends",
    "WS.C75_same_server"
   ],
   "note": "C75_safe for every schedule, C75_answered and C75_ends for every fair one, also with room for no byte at all (contrast C74_refuted: the client has a thread that always receives). C75_same_server ties the stepwise server thread to serverLoop of C48 and C53. From the end of the handshake on; transports take what they are given (Willing)."
  },
  {
   "property": "C76",
   "status": "partial",
   "theorems": [
    "WS.C76_requests_distinct",
    "WS.C76_order",
    "WS.C76_complete",
    "WS.C76_no_number",
    "WS.C76_no_server",
    "WS.C76_refuted_refused_case",
    "WS.C76_async_order",
    "WS.C76_refuted_largest",
    "WS.C76_case_served",
    "WS.C76_count_served",
    "WS.C76_reports_served",
    "WS.C76_all_cases_partial",
    "WS.C76_async_case_served",
    "WS.C76_async_count_served",
    "WS.C76_async_reports_served",
    "WS.C76_where"
   ],
   "note": "Order, exactly-once and independence hold in every world for both programs (C76_order, C76_async_order, C76_requests_distinct), for fewer than 2^64-1 cases. The async program goes on whatever happens in a case (C76_async_order). Missing for the full claim, because the code refutes it: the blocking program panics at a case whose connection is refused, and runs no later case (C76_refuted_refused_case); a server that announces 2^64-1 cases makes both panic (C76_refuted_largest). C76_all_cases_partial: if the server takes every connection, all cases are run whatever is sent in them."
  },
  {
   "property": "C77",
   "status": "partial",
   "theorems": [
    "WS.C77_safe",
    "WS.C77_says",
    "WS.C77_answered_or_stuck",
    "WS.C77_ends_or_stuck",
    "WS.C77_ends_partial",
    "WS.C77_stuck_forever",
    "WS.C77_can_get_stuck",
    "WS.C77_refuted_never_ends"
   ],
   "note": "C77_safe: order, contents and the absence of failures hold for every schedule and every amount of room; the client ends only after the server, with everything seen. C77_says: the same byte for byte. C77_answered_or_stuck and C77_ends_or_stuck: under every fair schedule every line is answered and both end, or the two are stuck in exactly one way (both hold a message their full sinks do not take, and the network is full both ways). Missing for the full claim, because the code refutes it: `forward` does not read while it waits to send, so whatever the room some input gets the two stuck forever (C77_refuted_never_ends, C77_can_get_stuck, C77_stuck_forever). C77_ends_partial: they are never stuck when what is said before /close is shorter than the sink's 8192 bytes and the room together, in either direction."
  },
  {
   "property": "C78",
   "status": "proved",
   "theorems": [
    "WS.C78_requests",
    "WS.C78_where",
    "WS.C78_ssl_secure",
    "WS.C78_unconnected",
    "WS.C78_not_split",
    "WS.C78_served",
    "WS.C78_async_served",
    "WS.C78_ssl_served"
   ],
   "note": "C78_where and C78_ssl_secure hold in any world; C78_requests gives the requests byte for byte; C78_unconnected covers every connection that fails, C78_not_split the one that cannot be split; C78_served, C78_async_served and C78_ssl_served join the handshake to the programs of C53, C64 and C65, for servers that answer and then send anything."
  },
  {
   "property": "C79",
   "status": "proved",
   "theorems": [
    "WS.C79_safe",
    "WS.C79_says",
    "WS.C79_connects",
    "WS.C79_answered",
    "WS.C79_ends"
   ],
   "note": "C79_safe and C79_says hold under every schedule; C79_connects, C79_answered and C79_ends under every fair one. Joins the handshake (C35, C52, C67) to the dialogue of the two programs (C75)."
  },
  {
   "property": "C80",
   "status": "partial",
   "theorems": [
    "WS.C80_safe",
    "WS.C80_says",
    "WS.C80_connects",
    "WS.C80_answered_or_stuck",
    "WS.C80_ends_or_stuck",
    "WS.C80_ends_partial",
    "WS.C80_stuck_forever",
    "WS.C80_can_get_stuck",
    "WS.C80_refuted_never_ends"
   ],
   "note": "C80_safe and C80_says hold under every schedule and every amount of room; C80_connects under every fair one. C80_answered_or_stuck and C80_ends_or_stuck: every line is answered and both end, or the two are stuck as in C77. Missing for the full claim, because the code refutes it: they can get stuck after a faultless handshake (C80_refuted_never_ends, C80_can_get_stuck, C80_stuck_forever). C80_ends_partial: not when what is said before /close is short."
  },
  {
   "property": "C81",
   "status": "proved",
   "theorems": [
    "WS.C81_safe",
    "WS.C81_deterministic",
    "WS.C81_everything_happens",
    "WS.C81_same_end",
    "WS.C81_rests_or_goes_on",
    "WS.C81_server_says",
    "WS.C81_server_answers"
   ],
   "note": "C81_safe, C81_deterministic, C81_everything_happens, C81_same_end and C81_rests_or_goes_on for all pairs of programs; C81_server_says and C81_server_answers for examples/server.rs and a client that does what it likes."
  },
  {
   "property": "C82",
   "status": "proved",
   "theorems": [
    "WS.C82_safe",
    "WS.C82_deterministic",
    "WS.C82_both_connect",
    "WS.C82_everything_happens",
    "WS.C82_same_end",
    "WS.C82_rests_or_goes_on",
    "WS.C82_server_says",
    "WS.C82_server_answers"
   ],
   "note": "C82_safe, C82_deterministic, C82_both_connect, C82_everything_happens, C82_same_end and C82_rests_or_goes_on for all pairs of programs; C82_server_says and C82_server_answers for examples/server.rs and a client that does what it likes."
  },
  {
   "property": "C83",
   "status": "proved",
   "theorems": [
    "WS.C83_heeds",
    "WS.C83_deterministic",
    "WS.C83_writes",
    "WS.C83_goes_on",
    "WS.C83_everything_happens",
    "WS.C83_short_streams",
    "WS.C83_server_says",
    "WS.C83_server_writes",
    "WS.C83_server_ends"
   ],
   "note": "C83_heeds, C83_deterministic, C83_writes, C83_goes_on and C83_everything_happens for all programs and all bytes; C83_short_streams: when an async client is included; C83_server_says, C83_server_writes and C83_server_ends for examples/server.rs."
  },
  {
   "property": "C84",
   "status": "proved",
   "theorems": [
    "WS.C84_heeds",
    "WS.C84_deterministic",
    "WS.C84_writes",
    "WS.C84_waits",
    "WS.C84_decides",
    "WS.C84_goes_on",
    "WS.C84_everything_happens",
    "WS.C84_server_lets_in",
    "WS.C84_async_server_lets_in",
    "WS.C84_client_connects",
    "WS.C84_async_client_connects",
    "WS.C84_clearcut",
    "WS.C84_server_says",
    "WS.C84_server_ends",
    "WS.C84_refuted_blank_lines"
   ],
   "note": "C84_heeds, C84_deterministic, C84_writes, C84_waits, C84_decides, C84_goes_on, C84_everything_happens for all programs; C84_server_lets_in, C84_async_server_lets_in, C84_client_connects, C84_async_client_connects say who is let in; C84_clearcut and C84_refuted_blank_lines delimit the async part; C84_server_says and C84_server_ends are about examples/server.rs."
  },
  {
   "property": "C85",
   "status": "proved",
   "theorems": [
    "WS.C85_written",
    "WS.C85_gone",
    "WS.C85_does",
    "WS.C85_deterministic",
    "WS.C85_answers"
   ],
   "note": "C85_written, C85_gone, C85_does, C85_deterministic; C85_answers says which requests get which bytes."
  },
  {
   "property": "C86",
   "status": "partial",
   "theorems": [
    "WS.C86_alone",
    "WS.C86_written",
    "WS.C86_gone",
    "WS.C86_blocked",
    "WS.C86_served_partial",
    "WS.C86_deterministic",
    "WS.C86_refuted_everybody"
   ],
   "note": "C86_alone, C86_written and C86_gone hold for everybody; C86_served_partial and C86_deterministic if nobody in front dawdles; C86_blocked and C86_refuted_everybody show that the condition is needed."
  },
  {
   "property": "C87",
   "status": "partial",
   "theorems": [
    "WS.C87_blocking_partial",
    "WS.C87_async_partial",
    "WS.C87_no_panic_partial",
    "WS.C87_room",
    "WS.C87_frame_size",
    "WS.C87_unlimited",
    "WS.C87_refuted_crash"
   ],
   "note": "C87_blocking_partial, C87_async_partial and C87_no_panic_partial hold if the limits leave room (C87_room: the defaults on 32 bits, all limits on 64); C87_refuted_crash shows what happens on 32 bits with frames of 2^31 bytes allowed."
  },
  {
   "property": "C88",
   "status": "partial",
   "theorems": [
    "WS.C88_written_partial",
    "WS.C88_gone_partial",
    "WS.C88_does_partial",
    "WS.C88_greets_partial",
    "WS.C88_deterministic_partial",
    "WS.C88_same_server",
    "WS.C88_answers",
    "WS.C88_unmistakable",
    "WS.C88_refuted_lost",
    "WS.C88_keeps",
    "WS.C88_final"
   ],
   "note": "C88_written_partial, C88_gone_partial, C88_does_partial and C88_deterministic_partial need bytes that settle what the library makes of them (C88_unmistakable says which do for hyper), and the last one that no error comes; C88_refuted_lost: otherwise an answer can be lost. C88_greets_partial: the 101 and the greeting never are. C88_keeps and C88_final hold for all bytes."
  },
  {
   "property": "C89",
   "status": "partial",
   "theorems": [
    "WS.C89_alone",
    "WS.C89_written_partial",
    "WS.C89_gone_partial",
    "WS.C89_greets_partial",
    "WS.C89_served_partial",
    "WS.C89_deterministic_partial",
    "WS.C89_refuted_lost",
    "WS.C89_keeps",
    "WS.C89_final"
   ],
   "note": "C89_alone is complete. C89_written_partial, C89_gone_partial, C89_greets_partial, C89_served_partial and C89_deterministic_partial ask of the peer's own bytes what C88 asks, and nothing of the others; C89_refuted_lost: two peers send the same bytes, one gets less. C89_keeps and C89_final hold for all bytes."
  },
  {
   "property": "C90",
   "status": "partial",
   "theorems": [
    "WS.C90_keeps",
    "WS.C90_final",
    "WS.C90_alone",
    "WS.C90_written_partial",
    "WS.C90_gone_partial",
    "WS.C90_crash_partial",
    "WS.C90_upgrades_partial",
    "WS.C90_served_partial",
    "WS.C90_deterministic_partial",
    "WS.C90_crashes_partial",
    "WS.C90_stopped",
    "WS.C90_answers",
    "WS.C90_unclouded",
    "WS.C90_refuted_everybody"
   ],
   "note": "The claim that the callers do not affect each other is false: C90_refuted_everybody, and in general C90_crashes_partial and C90_stopped. C90_alone and C90_answers are complete; C90_written_partial, C90_gone_partial, C90_crash_partial, C90_served_partial, C90_deterministic_partial, C90_upgrades_partial and C90_crashes_partial need bytes that settle what the library makes of them (C90_unclouded says which do for hyper), C90_served_partial and C90_deterministic_partial also that everybody's bytes begin like an opening handshake. C90_keeps and C90_final hold for all bytes."
  }
 ]
}