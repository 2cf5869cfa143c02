{
 "claims": [
  {
   "property": "C01",
   "status": "proved",
   "theorems": [
    "SIO.C01_event_text",
    "SIO.C01_value"
   ],
   "note": "Quantifier as stated (unambiguous argument text for non-default namespaces); float literals are assumed to be JSON numbers (FloatsOk)."
  },
  {
   "property": "C02",
   "status": "partial",
   "theorems": [
    "SIO.C02_event_binary",
    "SIO.C02_value_partial",
    "SIO.C02_counterexample",
    "SIO.C02_extent"
   ],
   "note": "On the level of JSON texts proved for the whole quantifier (C02_event_binary). On the level of read values false for a map that starts with serde_json's private key for raw values (C02_counterexample), and proved for all others (C02_value_partial). Among arguments without repeated keys exactly those with an object that starts with that key are not read as their value (C02_extent). Fewer than 2^64 attachments."
  },
  {
   "property": "C03",
   "status": "partial",
   "theorems": [
    "SIO.C03_partial",
    "SIO.C03_value_partial",
    "SIO.C03_counterexample"
   ],
   "note": "Acks without arguments are never decodable (proved for every namespace and id); all others round trip under the conditions of C04, C07, C15."
  },
  {
   "property": "C04",
   "status": "partial",
   "theorems": [
    "SIO.C04_partial",
    "SIO.C04_counterexample",
    "SIO.C04_extent"
   ],
   "note": "False for the first argument of an ack (witness proved); holds for all other builder states. The extent of the damage is proved too: for every such ack (namespace without a bracket) the frames that go out, whatever is added after the failed argument, are read by no peer as any packet."
  },
  {
   "property": "C05",
   "status": "proved",
   "theorems": [
    "SIO.C05_count",
    "SIO.C05_numbering",
    "SIO.C05_placeholders",
    "SIO.C05_lookalike"
   ],
   "note": "Placeholders are those standing for byte strings; application data that looks like a placeholder is not escaped (C05_lookalike)."
  },
  {
   "property": "C06",
   "status": "proved",
   "theorems": [
    "SIO.C06_no_panic"
   ],
   "note": ""
  },
  {
   "property": "C07",
   "status": "partial",
   "theorems": [
    "SIO.C07_partial",
    "SIO.C07_counterexample",
    "SIO.C07_extent"
   ],
   "note": "Every sequence that starts with a u8 and contains something else is sent with an additional first element 4; a value is sent rightly exactly if it contains no such sequence (C07_extent)."
  },
  {
   "property": "C08",
   "status": "proved",
   "theorems": [
    "SIO.C08_text_mode"
   ],
   "note": ""
  },
  {
   "property": "C09",
   "status": "proved",
   "theorems": [
    "SIO.C09_injective",
    "SIO.C09_builders"
   ],
   "note": "Also for ambiguous argument texts, as long as they are JSON arrays."
  },
  {
   "property": "C10",
   "status": "partial",
   "theorems": [
    "SIO.C10_partial",
    "SIO.C10_counterexample",
    "SIO.C10_extent"
   ],
   "note": "The code hands out text messages before open (false as stated, witness proved); everything else holds."
  },
  {
   "property": "C11",
   "status": "proved",
   "theorems": [
    "SIO.C11_close_final"
   ],
   "note": ""
  },
  {
   "property": "C12",
   "status": "proved",
   "theorems": [
    "SIO.C12_one_open",
    "SIO.C12_second_open_error",
    "SIO.C12_error_no_effect"
   ],
   "note": ""
  },
  {
   "property": "C13",
   "status": "partial",
   "theorems": [
    "SIO.C13_partial",
    "SIO.C13_counterexample"
   ],
   "note": "Numbers of 2^64 and above in the header panic (witness proved); the exact panic condition is proved."
  },
  {
   "property": "C14",
   "status": "proved",
   "theorems": [
    "SIO.C14_accept",
    "SIO.C14_parts",
    "SIO.C14_outcomes"
   ],
   "note": ""
  },
  {
   "property": "C15",
   "status": "partial",
   "theorems": [
    "SIO.C15_safe",
    "SIO.C15_accept_partial",
    "SIO.C15_counterexample"
   ],
   "note": "Never a wrong namespace, id or argument list; but ambiguous packets are rejected (exact condition and witness proved)."
  },
  {
   "property": "C16",
   "status": "proved",
   "theorems": [
    "SIO.C16_access"
   ],
   "note": ""
  },
  {
   "property": "C17",
   "status": "proved",
   "theorems": [
    "SIO.C17_args",
    "SIO.C17_reject"
   ],
   "note": ""
  },
  {
   "property": "C18",
   "status": "proved",
   "theorems": [
    "SIO.C18_header",
    "SIO.C18_wait",
    "SIO.C18_complete",
    "SIO.C18_quiet"
   ],
   "note": "The n messages are counted while the connection is open and no error occurred (an error ends the connection)."
  },
  {
   "property": "C19",
   "status": "proved",
   "theorems": [
    "SIO.C19_wellformed",
    "SIO.C19_packet"
   ],
   "note": ""
  },
  {
   "property": "C20",
   "status": "partial",
   "theorems": [
    "SIO.C20_partial",
    "SIO.C20_counterexample",
    "SIO.C20_private_counterexample"
   ],
   "note": "False: lone surrogates, nesting of 128 and more, numbers out of range, and objects with serde_json's private key for raw values panic; the exact condition and a witness are proved."
  },
  {
   "property": "C21",
   "status": "proved",
   "theorems": [
    "SIO.C21_fill",
    "SIO.C21_argument",
    "SIO.C21_error"
   ],
   "note": ""
  },
  {
   "property": "C22",
   "status": "partial",
   "theorems": [
    "SIO.C22_partial",
    "SIO.C22_counterexample",
    "SIO.C22_counterexample_placeholder"
   ],
   "note": "False: an argument that does not read as a value (C20) or a bad placeholder makes it panic; the exact condition and witnesses are proved."
  },
  {
   "property": "C23",
   "status": "partial",
   "theorems": [
    "SIO.C23_partial",
    "SIO.C23_counterexample",
    "SIO.C23_counterexample_option",
    "SIO.C23_counterexample_tuple",
    "SIO.C23_counterexample_key",
    "SIO.C23_counterexample_escape",
    "SIO.C23_counterexample_order",
    "SIO.C23_counterexample_variant",
    "SIO.C23_counterexample_fraction",
    "SIO.C23_counterexample_borrowed"
   ],
   "note": "False in general; nine concrete disagreements are proved. C23_partial proves the equality for every type and argument in the class Alike: placeholders in the usual form, no string target on a placeholder, no integer-keyed maps next to attachments, no escapes in first keys, tuples not shorter than the attachment, no option/newtype elements out of an attachment, no tuple variant on a placeholder, no lone surrogates in strings read as bytes, no borrowed text or bytes on a placeholder, no fraction or exponent in a number read as 128-bit integer."
  },
  {
   "property": "C24",
   "status": "partial",
   "theorems": [
    "SIO.C24_plain",
    "SIO.C24_aware_partial",
    "SIO.C24_types_partial",
    "SIO.C24_counterexample"
   ],
   "note": "First half proved for every type and argument (C24_plain). Second half is false for integer-keyed maps, escaped first keys, byte targets of strings with lone surrogates and 128-bit targets of numbers with a fraction (C24_counterexample), and proved for all other types and placeholder-free texts (C24_types_partial, C24_aware_partial)."
  },
  {
   "property": "C25",
   "status": "proved",
   "theorems": [
    "SIO.C25_deref_str",
    "SIO.C25_deref_bytes",
    "SIO.C25_subslice_str",
    "SIO.C25_subslice_bytes",
    "SIO.C25_whole",
    "SIO.C25_chain_str",
    "SIO.C25_eq",
    "SIO.C25_write"
   ],
   "note": ""
  },
  {
   "property": "C26",
   "status": "proved",
   "theorems": [
    "SIO.C26_lookup",
    "SIO.C26_ack_lookup",
    "SIO.C26_system",
    "SIO.C26_dispatch",
    "SIO.C26_delivered"
   ],
   "note": "Registry level and for every execution of the client machine."
  },
  {
   "property": "C27",
   "status": "proved",
   "theorems": [
    "SIO.C27_namespaces",
    "SIO.C27_history",
    "SIO.C27_within"
   ],
   "note": ""
  },
  {
   "property": "C28",
   "status": "partial",
   "theorems": [
    "SIO.C28_once",
    "SIO.C28_own",
    "SIO.C28_emit",
    "SIO.C28_unexpected_partial",
    "SIO.C28_counterexample"
   ],
   "note": "At most once, own callback only: proved in full. An ack without registration ends the connection with an error unless info logging panics on the packet (C22; witness proved)."
  },
  {
   "property": "C29",
   "status": "proved",
   "theorems": [
    "SIO.C29_distinct",
    "SIO.C29_ids"
   ],
   "note": ""
  },
  {
   "property": "C30",
   "status": "partial",
   "theorems": [
    "SIO.C30_pending",
    "SIO.C30_runs_partial",
    "SIO.C30_counterexample"
   ],
   "note": "The callback runs unless info logging panics on the packet (C22); an execution in which it does not run for that reason is proved."
  },
  {
   "property": "C31",
   "status": "proved",
   "theorems": [
    "SIO.C31_ping",
    "SIO.C31_only",
    "SIO.C31_system",
    "SIO.C31_pongs"
   ],
   "note": ""
  },
  {
   "property": "C32",
   "status": "proved",
   "theorems": [
    "SIO.C32_wire",
    "SIO.C32_queue",
    "SIO.C32_failed",
    "SIO.C32_contiguous"
   ],
   "note": ""
  },
  {
   "property": "C33",
   "status": "proved",
   "theorems": [
    "SIO.C33_silent",
    "SIO.C33_receives",
    "SIO.C33_cause",
    "SIO.C33_signal"
   ],
   "note": ""
  },
  {
   "property": "C34",
   "status": "proved",
   "theorems": [
    "SIO.C34_first",
    "SIO.C34_later",
    "SIO.C34_once",
    "SIO.C34_result",
    "SIO.C34_possible"
   ],
   "note": ""
  },
  {
   "property": "C35",
   "status": "proved",
   "theorems": [
    "SIO.C35_final",
    "SIO.C35_processing",
    "SIO.C35_transport",
    "SIO.C35_causes",
    "SIO.C35_reported",
    "SIO.C35_ends",
    "SIO.C35_dropped"
   ],
   "note": "The machine is untimed: a waiting close may also return its timeout."
  },
  {
   "property": "C36",
   "status": "proved",
   "theorems": [
    "SIO.C36_senders",
    "SIO.C36_no_panic",
    "SIO.C36_count",
    "SIO.C36_closed"
   ],
   "note": "Unless the application closes the channel itself through the public sender (close_channel), which is outside the quantifier; an example shows the panic."
  },
  {
   "property": "C37",
   "status": "partial",
   "theorems": [
    "SIO.C37_partial",
    "SIO.C37_client",
    "SIO.C37_counterexample",
    "SIO.C37_possible",
    "SIO.C37_returns",
    "SIO.C37_owner"
   ],
   "note": "False as stated: if the connection task ends before an open packet, connect panics (open.unwrap()) instead of returning an error (witness proved). Everything else holds."
  },
  {
   "property": "C38",
   "status": "partial",
   "theorems": [
    "SIO.C38_held",
    "SIO.C38_deadlock",
    "SIO.C38_counterexample",
    "SIO.C38_counterexample_ack",
    "SIO.C38_partial",
    "SIO.C38_released"
   ],
   "note": "False: the registry guard is a temporary of the if let and is held during the call of the callback, so a callback that uses the registry deadlocks (proved for every registry, event and ack). Callbacks that do not use the registry cause no deadlock; releasing the guard first would repair it (C38_released)."
  },
  {
   "property": "C39",
   "status": "proved",
   "theorems": [
    "SIO.C39_insecure",
    "SIO.C39_secure",
    "SIO.C39_other",
    "SIO.C39_no_panic",
    "SIO.C39_host",
    "SIO.C39_text"
   ],
   "note": "Url::parse itself is not modelled; the claim is about parsed urls."
  },
  {
   "property": "C40",
   "status": "partial",
   "theorems": [
    "SIO.C40_invalid_partial",
    "SIO.C40_unhandled_partial",
    "SIO.C40_counterexample"
   ],
   "note": "Holds unless info logging is on and the packet cannot be formatted (C22), then the receiver panics (witness proved)."
  },
  {
   "property": "C41",
   "status": "partial",
   "theorems": [
    "SIO.C41_handles",
    "SIO.C41_used",
    "SIO.C41_reply_partial",
    "SIO.C41_counterexample",
    "SIO.C43_system"
   ],
   "note": "False for replies without arguments, which no peer can read (C03). Proved: a handle exists iff the event has an id; each reply is one enqueued group; replies whose first argument can be serialized are read as ack with the id and namespace of the event, under the conditions of C03."
  },
  {
   "property": "C42",
   "status": "proved",
   "theorems": [
    "SIO.C42_open",
    "SIO.C42_second",
    "SIO.C42_system"
   ],
   "note": ""
  },
  {
   "property": "C43",
   "status": "proved",
   "theorems": [
    "SIO.C43_event",
    "SIO.C43_ack",
    "SIO.C43_system",
    "SIO.C43_system_ack"
   ],
   "note": "The event name may also come from an attachment designated by argument 0 (NameOf)."
  },
  {
   "property": "C44",
   "status": "proved",
   "theorems": [
    "SIO.C44_display"
   ],
   "note": "The value of an argument is the one serde_json reads (Gets): an object with its private key for raw values stands for the text in it. Floats print as the literal they were read from (simplification: serde_json prints the shortest literal of the same float). Which packets can be displayed is C22."
  },
  {
   "property": "C45",
   "status": "proved",
   "theorems": [
    "SIO.C45_event",
    "SIO.C45_reply"
   ],
   "note": "Conditions, each tied to a finding: unambiguous argument text outside the default namespace (C15), no sequence mixing u8 with other values in binary mode (C07), no user key `_placeholder` in binary mode, documents readable at the other side (nesting below 128, finite numbers, no object that starts with serde_json's private key for raw values)."
  },
  {
   "property": "C46",
   "status": "proved",
   "theorems": [
    "SIO.C46_close",
    "SIO.C46_drain",
    "SIO.C46_release"
   ],
   "note": ""
  },
  {
   "property": "C47",
   "status": "proved",
   "theorems": [
    "SIO.C47_panics",
    "SIO.C47_after",
    "SIO.C47_usable"
   ],
   "note": "The registry guard is held while the callback runs (see C38), so the panic poisons the mutex and every later lock().unwrap() panics."
  },
  {
   "property": "C48",
   "status": "proved",
   "theorems": [
    "SIO.C48_emit",
    "SIO.C48_route",
    "SIO.C48_possible"
   ],
   "note": "What the messages of the builder denote is C01-C08 and C45."
  },
  {
   "property": "C49",
   "status": "proved",
   "theorems": [
    "SIO.C49_exclusive",
    "SIO.C49_history",
    "SIO.C49_event",
    "SIO.C49_ack"
   ],
   "note": "This is what justifies a dispatch as one action in Client.lean."
  },
  {
   "property": "C50",
   "status": "proved",
   "theorems": [
    "SIO.C50_decoded",
    "SIO.C50_tells",
    "SIO.C50_error",
    "SIO.C50_encode"
   ],
   "note": "That text is taken before open is the defect of C10."
  },
  {
   "property": "C51",
   "status": "proved",
   "theorems": [
    "SIO.C51_event",
    "SIO.C51_ack"
   ],
   "note": "Floats are the literal text printed for them (trusted: ryu prints a JSON number); arguments with other float texts are excluded. Mixed sequences are as the code writes them (C07)."
  },
  {
   "property": "C52",
   "status": "proved",
   "theorems": [
    "SIO.C52_event",
    "SIO.C52_reply",
    "SIO.C52_callback"
   ],
   "note": "Gives is the relation between a type, a value and what its Serialize implementation hands over. Each condition is needed: the examples beside the theorems show values that are not read back without it. C52_callback assumes in binary mode that no key is _placeholder, and in both modes that no object starts with serde_json's private key, so that logging the packet does not panic."
  },
  {
   "property": "C53",
   "status": "partial",
   "theorems": [
    "SIO.C53_text",
    "SIO.C53_partial",
    "SIO.C53_counterexample",
    "SIO.C53_ignored",
    "SIO.C53_received"
   ],
   "note": "False for every namespace: both functions put the engine.io digit into the engine message, so deserialize rejects it, and encode_message would write the digit twice (C53_counterexample). The exact text is proved; sent as a websocket text as it is, it is read by a peer as that packet (C53_partial). Received packets of these kinds are ignored (C53_ignored, C53_received)."
  },
  {
   "property": "C54",
   "status": "proved",
   "theorems": [
    "SIO.C54_stream",
    "SIO.C54_only",
    "SIO.C54_unique",
    "SIO.C54_system",
    "SIO.C54_system_ok"
   ],
   "note": "C54_stream and C54_only are the two directions; C54_unique says that the cutting and the calls are determined. C54_system and C54_system_ok say the same of traces of the running client. As found: engine text messages are accepted before the open packet (C10), and with info logging on a packet must also be printable (C22); both are part of the exact conditions."
  },
  {
   "property": "C55",
   "status": "proved",
   "theorems": [
    "SIO.C55_delivered",
    "SIO.C55_accepted",
    "SIO.C55_events",
    "SIO.C55_sent",
    "SIO.C55_values",
    "SIO.C55_roundtrip"
   ],
   "note": "The conditions in the statement are those under which single packets arrive (C01-C03, C15); replies without arguments are not among them (C03_counterexample). C55_sent: what is in the queue are events, replies and pongs unless the application enqueues raw messages. C55_roundtrip assumes that at most 2^64 ack ids were given out (C29)."
  },
  {
   "property": "C56",
   "status": "proved",
   "theorems": [
    "SIO.C56_told",
    "SIO.C56_event",
    "SIO.C56_returns"
   ],
   "note": "The direction C55 leaves open: C55_delivered bounds the calls, C56 says for each thing sent at which message it is acted on. C56_returns assumes that at most 2^64 ack ids were given out (C29)."
  },
  {
   "property": "C57",
   "status": "proved",
   "theorems": [
    "SIO.C57_pair",
    "SIO.C57_answered"
   ],
   "note": "Failing means ending with an error of the receiver; the task may still end by close, by websocket errors or by a panic of a callback. The hypotheses name what was sent (ssA, ssB), so raw messages of the application are excluded; an example shows that one of those does make the receiver fail. Unlike C55 and C56 this needs the order of time between the two clients (Joint)."
  },
  {
   "property": "C58",
   "status": "partial",
   "theorems": [
    "SIO.C58_partial",
    "SIO.C58_forever",
    "SIO.C58_room",
    "SIO.C58_counterexample"
   ],
   "note": "False of the code: while the task awaits sink.send (connection.rs:151-157) it does not poll the stream, so two clients that each have a message to write and a full network before it block each other; for every capacity n, n+1 events without arguments on each side are enough (C58_counterexample). Proved: that is the only way to get stuck (C58_partial); once stuck nothing is received or written until a write fails or a task is dropped, whatever the applications do, close signals included (C58_forever); and it needs more than n messages sent on both sides (C58_room). Control frames do not take room in this model."
  },
  {
   "property": "C59",
   "status": "proved",
   "theorems": [
    "SIO.C59_receive",
    "SIO.C59_take",
    "SIO.C59_write",
    "SIO.C59_group",
    "SIO.C59_close"
   ],
   "note": "Together with C36_closed (the queue ends), C46_release (the task is dropped) this covers all actions of the task. The select! of futures is modelled as a free choice between what is ready."
  },
  {
   "property": "C60",
   "status": "proved",
   "theorems": [
    "SIO.C60_owned",
    "SIO.C60_text",
    "SIO.C60_bytes"
   ],
   "note": "owned replaces the borrowed types inside a type; Borrows says where a tree has something that would have to be decoded. That the references stay valid is the business of the Rust type system and not modelled."
  },
  {
   "property": "C61",
   "status": "proved",
   "theorems": [
    "SIO.C61"
   ],
   "note": "Yields (Spec/Yields.lean) is a relation between types, syntax trees and values, by recursion on the type; it covers reading with and without attachments, including the differences between the two that C23 has as counterexamples. What serde, serde_derive and serde_json do per target type is part of the model (trusted base)."
  },
  {
   "property": "C62",
   "status": "proved",
   "theorems": [
    "SIO.C62_calls",
    "SIO.C62_open",
    "SIO.C62_poisoned",
    "SIO.C62_reentrant",
    "SIO.C62_registry",
    "SIO.C62_task",
    "SIO.C62_first",
    "SIO.C62_quiet",
    "SIO.C62_abandoned"
   ],
   "note": "Model CallLock.lean: a mutex per callback (shared by its clones) and per client, poisoned when a thread panics with the guard. A panic ends its thread; the application does not catch panics."
  },
  {
   "property": "C63",
   "status": "proved",
   "theorems": [
    "SIO.C63_finish",
    "SIO.C63_plain",
    "SIO.C63_clients",
    "SIO.C63_callbacks"
   ],
   "note": "C63_clients and C63_callbacks show the two deadlocks. A callback that uses the registry of its own client is C38."
  },
  {
   "property": "C64",
   "status": "proved",
   "theorems": [
    "SIO.C64_served",
    "SIO.C64_history",
    "SIO.C64_event_body",
    "SIO.C64_ack_body"
   ],
   "note": "C49 says this for one client, without panics and without the mutex inside callbacks."
  },
  {
   "property": "C65",
   "status": "proved",
   "theorems": [
    "SIO.C65_cut",
    "SIO.C65_error",
    "SIO.C65_panic",
    "SIO.C65_one",
    "SIO.C65_silent",
    "SIO.C65_task",
    "SIO.C65_after"
   ],
   "note": "That some messages make the receiver panic is what violates C14 and C22; here it is said which. In the running client a panic of the task directly after a message need not come from the message: the channel of outgoing messages can have ended (C36)."
  },
  {
   "property": "C66",
   "status": "proved",
   "theorems": [
    "SIO.C66_timeout",
    "SIO.C66_pending",
    "SIO.C66_result",
    "SIO.C66_either",
    "SIO.C66_close_either",
    "SIO.C66_returns",
    "SIO.C66_dial",
    "SIO.C66_close_timeout",
    "SIO.C66_close",
    "SIO.C66_close_call",
    "SIO.C66_wait",
    "SIO.C66_free",
    "SIO.C66_calls",
    "SIO.C66_idle",
    "SIO.C66_untimed"
   ],
   "note": "When a future is polled is up to the executor and not part of the model: a future nobody polls does not return. If the time is up and the awaited thing is there too, either of the two can be returned."
  },
  {
   "property": "C67",
   "status": "proved",
   "theorems": [
    "SIO.C67_before",
    "SIO.C67_possible",
    "SIO.C67_silent",
    "SIO.C67_connect",
    "SIO.C67_close",
    "SIO.C67_ready",
    "SIO.C67_lost",
    "SIO.C67_registry",
    "SIO.C67_kept"
   ],
   "note": "What the remote handle of the futures crate does when its task is gone (it panics with Canceled) is part of the trusted base."
  },
  {
   "property": "C68",
   "status": "proved",
   "theorems": [
    "SIO.C68_project",
    "SIO.C68_event",
    "SIO.C68_callbacks",
    "SIO.C68_answers",
    "SIO.C68_written",
    "SIO.C68_ack",
    "SIO.C68_output",
    "SIO.C68_panic",
    "SIO.C68_ends",
    "SIO.C68_ws_sent",
    "SIO.C68_ws_written",
    "SIO.C68_ws_callbacks",
    "SIO.C68_ws_output",
    "SIO.C68_ws_panic",
    "SIO.C68_ws_ends",
    "SIO.C68_exclusive",
    "SIO.C68_free",
    "SIO.C68_main",
    "SIO.C68_handles",
    "SIO.C68_closes"
   ],
   "note": "The programs start at Client::connect; the parsing of their command line and the setting up of the runtime and the TLS connector are not modelled. Printing to stdout is taken not to fail."
  },
  {
   "property": "C69",
   "status": "proved",
   "theorems": [
    "SIO.C69_sort",
    "SIO.C69_engine",
    "SIO.C69_socket",
    "SIO.C69_decoder",
    "SIO.C69_placeholder",
    "SIO.C69_url",
    "SIO.C69_line",
    "SIO.C69_raw",
    "SIO.C69_words",
    "SIO.C69_address",
    "SIO.C69_counts",
    "SIO.C69_literal",
    "SIO.C69_bytes"
   ],
   "note": "What serde_json, tungstenite, url and the spawner print, the derived Debug of packets, JSON values and close frames, and which characters beyond ASCII {:?} escapes, are left open (a parameter, possibly different for the two errors compared)."
  },
  {
   "property": "C70",
   "status": "proved",
   "theorems": [
    "SIO.C70_received",
    "SIO.C70_sent",
    "SIO.C70_same",
    "SIO.C70_read",
    "SIO.C70_end",
    "SIO.C70_open",
    "SIO.C70_callback",
    "SIO.C70_info",
    "SIO.C70_line",
    "SIO.C70_warn",
    "SIO.C70_neutral",
    "SIO.C70_opened",
    "SIO.C70_frame",
    "SIO.C70_message",
    "SIO.C70_order",
    "SIO.C70_level",
    "SIO.C70_failed",
    "SIO.C70_shown"
   ],
   "note": "The log is the list of the records at all levels; what a logger adds is not part of it. What other crates print ({:?} of close frames and websocket errors) is a parameter."
  },
  {
   "property": "C71",
   "status": "partial",
   "theorems": [
    "SIO.C71_partial",
    "SIO.C71_counterexample",
    "SIO.C71_extent"
   ],
   "note": "False of the code for every pong: receiver.rs:97 logs `Received engine ping packet` (C71_extent). Proved for every other kind."
  },
  {
   "property": "C72",
   "status": "proved",
   "theorems": [
    "SIO.C72_work",
    "SIO.C72_delivered",
    "SIO.C72_possible"
   ],
   "note": "The assumptions on what was sent are those of C55 and C57 (what C01-C03 and C15 show can go wrong is excluded). A callback that is called returns."
  },
  {
   "property": "C73",
   "status": "proved",
   "theorems": [
    "SIO.C73_log",
    "SIO.C73_senders",
    "SIO.C73_builder",
    "SIO.C73_client"
   ],
   "note": "Together with C34_possible (close), C37_possible (connect) and C41_used (replies) this covers all actions of the application, as C59 does for the task. That one event at a time is built is what the borrow checker enforces (an event borrows the client mutably); the order of the calls is that of the types of emit.rs. The model allows uses of a lent client that the borrow checker forbids, so for these only the direction 'only if' speaks about the code."
  },
  {
   "property": "C74",
   "status": "proved",
   "theorems": [
    "SIO.C74_target",
    "SIO.C74_exact",
    "SIO.C74_returns",
    "SIO.C74_sort",
    "SIO.C74_read",
    "SIO.C74_text"
   ],
   "note": "C74_exact is an equivalence with the relation Came, which does not mention cstep; its case `inside` refers to the executions (Runs) that the other properties describe. Url::parse is a parameter, with the hypothesis that it gives urls of the four schemes a host. That the panic of the last case should be an error is C37 (C37_counterexample)."
  }
 ]
}