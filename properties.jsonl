{"id": "C01", "title": "Text-mode event round trip", "statement": "The single websocket text message produced by an event builder in text mode, when fed to a peer that runs this crate's decoder, yields exactly one event packet with the same namespace, the same ack id and arguments whose JSON values are the event name followed by the JSON encodings of the supplied arguments, in order.", "quantifier": "every event name, every ack id below 2^64 or none, the default namespace and every namespace that begins with '/' and holds no newline, every list of serializable argument values (for a non-default namespace: those whose JSON text is unambiguous, see C15)", "why_tests_cant": "The space of names, namespaces, ids and nested argument values is infinite; escaping, comma and digit collisions only appear at particular combinations.", "anchors": ["socket-io-protocol/src/socket/ser.rs:PacketBuilder::{new_event,serialize_arg,finish}", "socket-io-protocol/src/socket/de.rs:deserialize", "socket-io-protocol/src/engine.rs:Decoder::decode"]}
{"id": "C02", "title": "Binary-mode event round trip", "statement": "The messages produced by an event builder in binary mode, when fed in order to a peer running this crate's decoder, yield one event packet with the same namespace, ack id and arguments; each argument read as a JSON value equals the JSON value of the supplied argument with every byte string rendered as an array of numbers.", "quantifier": "every event name, id, namespace as in C01, and every argument list whose sequences are not mixed (a u8 element followed by a non-u8 element) and that contains no map key `_placeholder`, is nested less than 128 deep and has numbers within the range of the reader (C20 is about the others)", "why_tests_cant": "Placeholders, numbering and refilling interact with arbitrary nesting.", "anchors": ["socket-io-protocol/src/socket/ser.rs:PacketBuilder", "socket-io-protocol/src/socket/args/serialize_attachments.rs:serialize_json", "socket-io-protocol/src/socket/args/mod.rs:Arg::to_json_value", "socket-io-protocol/src/socket/de.rs:deserialize_partial"]}
{"id": "C03", "title": "Ack round trip", "statement": "An ack reply built with at least one argument is decoded by a peer running this crate as an ack packet with the same namespace, id and arguments; the reply built with no arguments should be decodable as well.", "quantifier": "every namespace, id, and argument list, in text and in binary mode", "why_tests_cant": "Infinite argument space; the empty-list corner is a separate code path.", "anchors": ["socket-io-protocol/src/socket/ser.rs:PacketBuilder::new_ack", "socket-io-protocol/src/socket/de.rs:deserialize_event", "socket-io-client/src/emit.rs:AckBuilder"]}
{"id": "C04", "title": "A failed argument leaves the builder unchanged", "statement": "If adding an argument to a packet builder fails, the builder behaves afterwards exactly as if the failed call had not been made (this is what the doc comment of serialize_arg promises).", "quantifier": "every builder (event or ack, text or binary), every history of successful and failed argument additions, every failing argument", "why_tests_cant": "Needs every position of the failure in every history, including failures after part of the argument and its attachments were already written.", "anchors": ["socket-io-protocol/src/socket/ser.rs:PacketBuilder::serialize_arg"]}
{"id": "C05", "title": "Attachment count, numbering and framing", "statement": "In binary mode the attachment count announced in the header equals the number of binary messages that follow it; the placeholders occurring in the text are numbered 0,1,2,... in order of appearance, one per attachment; every attachment is a binary message that starts with the engine.io message byte 4.", "quantifier": "every sequence of argument additions, including failing ones", "why_tests_cant": "Depends on the global order of nested byte strings over all arguments, and on roll-back after failures.", "anchors": ["socket-io-protocol/src/socket/ser.rs:PacketBuilder::{serialize_arg,finish}", "socket-io-protocol/src/socket/args/serialize_attachments.rs:Wrapper::serialize_bytes", "socket-io-protocol/src/socket/args/serialize_attachments.rs:SeqWrapper"]}
{"id": "C06", "title": "Building and finishing a packet never panics", "statement": "No sequence of builder calls makes the packet-building API panic: the header assertions in the message packaging functions always hold.", "quantifier": "every builder history", "why_tests_cant": "A panic needs only one bad history; the assertion is about all reachable buffers.", "anchors": ["socket-io-protocol/src/engine.rs:package_message", "socket-io-protocol/src/engine.rs:package_binary", "socket-io-protocol/src/socket/ser.rs:PacketBuilder::finish"]}
{"id": "C07", "title": "Byte sequences become attachments, everything else is JSON", "statement": "In binary mode a byte string or a non-empty sequence whose elements are all u8 is sent as an attachment with exactly those bytes; any other sequence is sent as the JSON array of exactly its elements.", "quantifier": "every sequence value, including sequences that start with u8 elements and continue with other values", "why_tests_cant": "The choice is made incrementally while elements arrive; mixed prefixes are exponentially many.", "anchors": ["socket-io-protocol/src/socket/args/serialize_attachments.rs:SeqWrapper::{serialize_element,end}", "socket-io-protocol/src/socket/args/serialize_attachments.rs:SeqElementSerializer"]}
{"id": "C08", "title": "Text mode sends one message and no attachments", "statement": "In text mode the builder always produces exactly one websocket text message, it begins with the engine.io message digit followed by the packet kind digit, and byte strings appear in it as JSON arrays of numbers.", "quantifier": "every event or ack, namespace, id and argument list", "why_tests_cant": "Infinite argument space.", "anchors": ["socket-io-protocol/src/socket/ser.rs:PacketBuilder::finish", "socket-io-protocol/src/socket/args/mod.rs:serialize_arg"]}
{"id": "C09", "title": "Headers are injective", "statement": "Two packets that differ in kind, attachment count, namespace or ack id never have the same wire text, whatever their arguments.", "quantifier": "all pairs of (kind, attachment count, namespace, id, argument text) with unambiguous argument text", "why_tests_cant": "A statement about all pairs of inputs.", "anchors": ["socket-io-protocol/src/socket/ser.rs:serialize_header", "socket-io-protocol/src/socket/de.rs:DESERIALIZE_RE"]}
{"id": "C10", "title": "Engine handshake: nothing is delivered before open", "statement": "No engine message, ping, pong or close is delivered by the decoder before an open packet was decoded.", "quantifier": "every sequence of incoming websocket messages", "why_tests_cant": "A safety property over all message histories.", "anchors": ["socket-io-protocol/src/engine.rs:Decoder::decode"]}
{"id": "C11", "title": "Engine close is final", "statement": "Once the engine close packet has been decoded, every later websocket message, of any type, is rejected and the decoder never becomes active again.", "quantifier": "every message history before and after the close", "why_tests_cant": "Quantifies over unbounded histories.", "anchors": ["socket-io-protocol/src/engine.rs:Decoder::decode"]}
{"id": "C12", "title": "At most one open; failing decodes leave the decoder state alone", "statement": "At most one open packet is ever decoded on a connection, a second open is an error, and a decode that returns an error does not change how later messages are treated.", "quantifier": "every message history", "why_tests_cant": "Quantifies over unbounded histories.", "anchors": ["socket-io-protocol/src/engine.rs:Decoder::{decode,decode_text,decode_binary}"]}
{"id": "C13", "title": "Decoding untrusted text never panics", "statement": "Decoding any text or binary message received from the network returns a packet, a request for attachments or an error; it does not panic.", "quantifier": "every unicode string and byte string", "why_tests_cant": "Panics hide at numeric limits and at malformed inputs.", "anchors": ["socket-io-protocol/src/socket/de.rs:parse_text", "socket-io-protocol/src/socket/de.rs:parse_args", "socket-io-protocol/src/socket/de.rs:deserialize_partial", "socket-io-protocol/src/socket/mod.rs:Packet::data"]}
{"id": "C14", "title": "Accepted packets are exactly those of the packet grammar", "statement": "A text is accepted by the header parser iff it is: one kind digit of 0,1,2,3,5,6; optionally a canonical decimal and '-'; optionally a namespace starting with '/' and a ','; optionally a canonical decimal id; optionally a bracketed argument text; with no newline inside namespace or arguments. The parts reported are those of the decomposition with the longest namespace.", "quantifier": "every unicode string", "why_tests_cant": "A language equality over all strings.", "anchors": ["socket-io-protocol/src/socket/de.rs:DESERIALIZE_RE", "socket-io-protocol/src/socket/de.rs:parse_text"]}
{"id": "C15", "title": "No message is delivered to a wrong namespace", "statement": "If a peer sends a well-formed packet (namespace, id, JSON array of arguments), then a packet decoded from it has that namespace, that id and those arguments. Ideally every such packet is accepted.", "quantifier": "every namespace starting with '/', id and every JSON array text (arbitrary whitespace-free-of-newline JSON)", "why_tests_cant": "The greedy namespace match interacts with every comma in the arguments, including those inside strings.", "anchors": ["socket-io-protocol/src/socket/de.rs:DESERIALIZE_RE", "socket-io-protocol/src/socket/de.rs:parse_text"]}
{"id": "C16", "title": "Decoded argument access is in bounds", "statement": "For every decoded packet, reading the namespace and getting any argument index never panics: all recorded ranges lie inside the message and on character boundaries; an index is present iff it is below the length; iteration yields exactly the arguments in index order.", "quantifier": "every decodable text, including multi-byte characters, every index", "why_tests_cant": "Byte offsets vs character boundaries for all unicode texts.", "anchors": ["socket-io-protocol/src/socket/mod.rs:Packet::namespace", "socket-io-protocol/src/socket/args/mod.rs:Args::{len,is_empty,get,iter}", "socket-io-protocol/src/socket/de.rs:parse_args"]}
{"id": "C17", "title": "Arguments are the JSON elements of the argument array", "statement": "The arguments of a decoded event or ack are exactly the texts of the elements of the JSON array in the message, without surrounding whitespace, in order; a message whose argument text is not a JSON array is rejected.", "quantifier": "every argument text", "why_tests_cant": "Needs a grammar-level argument over all JSON texts.", "anchors": ["socket-io-protocol/src/socket/de.rs:parse_args"]}
{"id": "C18", "title": "A binary packet completes after exactly its announced attachments", "statement": "After a binary header announcing n > 0 attachments, the packet is delivered exactly when the n-th following engine message arrives, with those n attachments in arrival order; if one of them is a text message the packet is rejected instead; pings, pongs and websocket control frames in between do not disturb it.", "quantifier": "every n, every sequence of interleaved messages", "why_tests_cant": "Unbounded n and interleavings.", "anchors": ["socket-io-client/src/receiver.rs:Receiver::process_message", "socket-io-client/src/receiver.rs:InProgress", "socket-io-protocol/src/socket/de.rs:deserialize_partial"]}
{"id": "C19", "title": "Well-formedness of decoded packets", "statement": "Every decoded ack packet has an id and at least one argument, every decoded event has at least one argument, connect and disconnect packets carry neither id nor arguments, and the number of attachments of a decoded packet is the announced number.", "quantifier": "every decodable message (with every attachment list)", "why_tests_cant": "All inputs.", "anchors": ["socket-io-protocol/src/socket/de.rs:deserialize_event", "socket-io-protocol/src/socket/de.rs:deserialize_dataless", "socket-io-protocol/src/socket/de.rs:deserialize_binary", "socket-io-protocol/src/socket/mod.rs:Packet::data"]}
{"id": "C20", "title": "Reading an argument as a JSON value never panics", "statement": "Arg::to_json_value returns a value or an error for every argument of every decoded packet; it does not panic.", "quantifier": "every decodable packet and argument index", "why_tests_cant": "The unwrap is justified in the source by a claim about all texts.", "anchors": ["socket-io-protocol/src/socket/args/mod.rs:Arg::to_json_value"]}
{"id": "C21", "title": "Placeholder filling is exact", "statement": "Reading an argument of a packet with attachments as a JSON value replaces every object with a `_placeholder` key by the array of the bytes of the attachment its `num` designates and changes nothing else; it fails iff some such object has no unsigned `num` or one that is out of range, and the error names the offending number and the attachment count.", "quantifier": "every JSON value and attachment list", "why_tests_cant": "Arbitrary nesting and index values.", "anchors": ["socket-io-protocol/src/socket/args/mod.rs:fill_placeholders_value"]}
{"id": "C22", "title": "Displaying or logging a packet never panics", "statement": "Formatting a decoded packet or its arguments (as the receiver does when info logging is enabled) does not panic.", "quantifier": "every decodable packet", "why_tests_cant": "Only fails for particular remote-controlled contents.", "anchors": ["socket-io-protocol/src/socket/args/mod.rs:Display for Arg", "socket-io-protocol/src/socket/mod.rs:Display for Packet", "socket-io-client/src/receiver.rs:Receiver::process_packet"]}
{"id": "C23", "title": "Typed deserialization agrees with filled JSON", "statement": "Deserializing an argument into a type gives the same result as deserializing, into that type, the JSON text in which placeholders were replaced by the byte arrays they designate.", "quantifier": "every target type built from booleans, integers, strings, byte strings, options, sequences, tuples, maps, structs, enums and dynamic JSON values; every argument and attachment list", "why_tests_cant": "Quantifies over all types and values.", "anchors": ["socket-io-protocol/src/socket/args/deserialize_attachments.rs:BinaryDeserializer", "socket-io-protocol/src/socket/args/deserialize_attachments.rs:BinaryVisitor", "socket-io-protocol/src/socket/args/mod.rs:Arg::deserialize"]}
{"id": "C24", "title": "Without attachments typed deserialization is plain JSON deserialization", "statement": "For a packet without attachments Arg::deserialize is exactly JSON deserialization, and the attachment-aware deserializer with an empty attachment list treats placeholder-free input the same way.", "quantifier": "every target type and argument text", "why_tests_cant": "All types and texts.", "anchors": ["socket-io-protocol/src/socket/args/mod.rs:Arg::deserialize", "socket-io-protocol/src/socket/args/deserialize_attachments.rs:deserialize"]}
{"id": "C25", "title": "Owned subslices behave like slices", "statement": "Dereferencing an owned subslice gives the designated part of its data; taking a subslice of a subslice equals slicing the dereferenced value, with the end clamped to the outer end; a conversion from a whole string or vector dereferences to that value; equality is equality of the visible parts.", "quantifier": "every data, every range and nested range", "why_tests_cant": "All offsets.", "anchors": ["owned_subslice/src/lib.rs:OwnedSubslice::{new,subslice,deref,from,eq}"]}
{"id": "C26", "title": "Event dispatch follows the registration history", "statement": "An incoming event for (namespace, name) is delivered to the callback most recently set for exactly that pair if that was not cleared since; otherwise to the fallback most recently set for that namespace if that was not cleared since; otherwise to nobody.", "quantifier": "every history of set/clear event/fallback calls, ack registrations and removals, every namespace and name", "why_tests_cant": "Unbounded histories.", "anchors": ["socket-io-client/src/callbacks.rs:Callbacks", "socket-io-client/src/lib.rs:fwd_cbs"]}
{"id": "C27", "title": "Namespaces are isolated", "statement": "An operation on callbacks of one namespace never changes which callback an event or ack of another namespace is delivered to; within a namespace, event callbacks, the fallback and ack callbacks do not affect each other except that the fallback serves unset events.", "quantifier": "every history and pair of namespaces", "why_tests_cant": "Unbounded histories.", "anchors": ["socket-io-client/src/callbacks.rs:Callbacks"]}
{"id": "C28", "title": "Ack callbacks run at most once and only for their own ack", "statement": "An ack callback runs at most once; it runs only on an ack packet with the namespace of its emit and its own id; an ack with no pending callback is an error.", "quantifier": "every history of emits and incoming packets", "why_tests_cant": "Unbounded histories and interleavings.", "anchors": ["socket-io-client/src/callbacks.rs:Callbacks::{set_ack,get_and_clear_ack}", "socket-io-client/src/receiver.rs:Receiver::process_packet", "socket-io-client/src/emit.rs:EventArgsBuilder::send"]}
{"id": "C29", "title": "Ack ids are never reused", "statement": "Every call of callback() on an event builder gets an id different from all earlier ones of that client, whether or not the earlier events were sent, as long as fewer than 2^64 were requested.", "quantifier": "every history of builder calls", "why_tests_cant": "Unbounded histories, counter wrap-around.", "anchors": ["socket-io-client/src/emit.rs:EventBuilder::callback", "socket-io-client/src/lib.rs:Client"]}
{"id": "C30", "title": "No lost ack: the callback is registered before the event can be answered", "statement": "Whenever an event with an ack id has reached the send queue (or the wire), its ack callback is pending unless its ack has already been consumed; hence the first matching ack always runs it.", "quantifier": "every interleaving of the emitting thread with the connection task", "why_tests_cant": "A race between two threads.", "anchors": ["socket-io-client/src/emit.rs:EventArgsBuilder::send"]}
{"id": "C31", "title": "Every engine ping is answered by one pong", "statement": "Each engine ping received in the active state enqueues exactly one pong message, in order, and nothing else enqueues pongs; ping handling does not touch callbacks or a pending binary packet.", "quantifier": "every incoming history", "why_tests_cant": "Unbounded histories.", "anchors": ["socket-io-client/src/receiver.rs:Receiver::process_message", "socket-io-protocol/src/engine.rs:encode_pong"]}
{"id": "C32", "title": "Packets are sent whole, contiguous and in order", "statement": "The websocket messages written to the connection are the concatenation, in enqueue order, of the enqueued message groups, with at most the last one incomplete; in particular the attachments of a binary packet directly follow its header, with no pong or other packet between.", "quantifier": "every schedule of senders, receiver and the connection task, every failure point", "why_tests_cant": "All interleavings.", "anchors": ["socket-io-client/src/connection.rs:process_websocket", "socket-io-client/src/emit.rs:EventArgsBuilder::send", "socket-io-client/src/emit.rs:AckArgsBuilder::send"]}
{"id": "C33", "title": "Close finishes the current group and sends nothing afterwards", "statement": "Once close is requested and observed, the group being written has been written completely, and no further application message is written; incoming messages are still processed until the stream ends.", "quantifier": "every schedule", "why_tests_cant": "All interleavings.", "anchors": ["socket-io-client/src/connection.rs:process_websocket", "socket-io-client/src/connection.rs:Connection::close"]}
{"id": "C34", "title": "Close succeeds at most once", "statement": "The first close() call reports the outcome of the connection task or a timeout, and every later call returns AlreadyClosed without further effect.", "quantifier": "every sequence of close calls, including cancelled ones", "why_tests_cant": "Unbounded histories and cancellation points.", "anchors": ["socket-io-client/src/connection.rs:Connection::close", "socket-io-client/src/lib.rs:Client::close"]}
{"id": "C35", "title": "An error stops the connection", "statement": "After the first processing, stream or sink error nothing more is received, dispatched or sent, and close() reports that error.", "quantifier": "every schedule and error position", "why_tests_cant": "All interleavings.", "anchors": ["socket-io-client/src/connection.rs:process_websocket"]}
{"id": "C36", "title": "The send queue never ends under the connection task", "statement": "While the connection task runs, its queue has at least one live sender, so the 'Sending stream closed unexpectedly' panic is unreachable.", "quantifier": "every schedule of clones and drops of senders by the user", "why_tests_cant": "All interleavings.", "anchors": ["socket-io-client/src/connection.rs:process_websocket", "socket-io-client/src/receiver.rs:Receiver"]}
{"id": "C37", "title": "connect reports every failure as an error", "statement": "Client::connect returns a client only after an open packet was received, with the session id of that packet; in every other case (handshake failure, timeouts, stream end or protocol error before open) it returns an error.", "quantifier": "every schedule of handshake, incoming messages and timers", "why_tests_cant": "Races between timers and the network.", "anchors": ["socket-io-client/src/connection.rs:Connection::new", "socket-io-client/src/lib.rs:Client::new"]}
{"id": "C38", "title": "Callbacks run without holding the callback registry lock", "statement": "An event or ack callback may itself register, clear or emit with callbacks without deadlock, because the registry lock is released before the callback is called (as documented on EventCallback).", "quantifier": "every registry content, every incoming event or ack, every callback behaviour", "why_tests_cant": "Deadlock depends on lock scope on all paths.", "anchors": ["socket-io-client/src/receiver.rs:Receiver::process_packet", "socket-io-client/src/callbacks.rs:EventCallback"]}
{"id": "C39", "title": "URL scheme, host and port decision", "statement": "http and ws URLs are connected insecurely on the given port or 80, https and wss URLs securely on the given port or 443, every other scheme is rejected with its name; the existing query is kept and EIO=4 and transport=websocket are appended in this order (then sid if any).", "quantifier": "every parsed URL", "why_tests_cant": "All schemes, ports and queries.", "anchors": ["socket-io-client/src/lib.rs:parse_url", "socket-io-client/src/lib.rs:add_socketio_query_params", "socket-io-client/src/lib.rs:Client::connect", "socket-io-client/src/connection.rs:Connection::new"]}
{"id": "C40", "title": "Invalid events are errors, unhandled ones are ignored", "statement": "An event whose first argument does not deserialize as a string ends the connection with an error and runs no callback; an event with a name but no matching callback is ignored: nothing is sent, nothing changes.", "quantifier": "every packet and registry", "why_tests_cant": "All inputs.", "anchors": ["socket-io-client/src/receiver.rs:Receiver::process_packet"]}
{"id": "C41", "title": "Replies carry the id and namespace of their event", "statement": "The ack builder handed to an event callback exists iff the event has an id; a reply sent through it decodes to an ack with exactly that id and namespace, and each sent reply is one enqueued group.", "quantifier": "every event, namespace, id and reply arguments", "why_tests_cant": "All inputs.", "anchors": ["socket-io-client/src/receiver.rs:Receiver::process_packet", "socket-io-client/src/emit.rs:AckBuilder", "socket-io-client/src/emit.rs:AckArgsBuilder::send"]}
{"id": "C42", "title": "Open is signalled at most once", "statement": "The open information reaches the connecting task at most once and is that of the first open packet; the 'second open' branch of the receiver is unreachable.", "quantifier": "every incoming history", "why_tests_cant": "Unbounded histories.", "anchors": ["socket-io-client/src/receiver.rs:Receiver::process_message", "socket-io-protocol/src/engine.rs:Decoder"]}
{"id": "C43", "title": "Callbacks see the whole argument list and its attachments", "statement": "A delivered event or ack passes to the callback exactly the arguments and attachments of the decoded packet, in order, the event name being argument 0.", "quantifier": "every packet and registry", "why_tests_cant": "All inputs.", "anchors": ["socket-io-client/src/receiver.rs:Receiver::process_packet", "socket-io-protocol/src/socket/mod.rs:Packet::data"]}
{"id": "C44", "title": "Displayed packets show what the packet means", "statement": "If a decoded packet can be displayed, the text is 'Connect', 'Disconnect', 'Event { id: <None|Some(n)>, args: [a, b, ...] }' or 'Ack { id: n, args: [a, b, ...] }' according to its kind and id, with one text per argument in order, each a JSON text that stands for the value serde_json reads from that argument, with its attachments filled in.", "quantifier": "every decodable packet text and attachment list", "why_tests_cant": "All packets, argument trees, strings to be escaped and attachments.", "anchors": ["socket-io-protocol/src/socket/mod.rs:Display for Data", "socket-io-protocol/src/socket/args/mod.rs:Display for Args", "socket-io-protocol/src/socket/args/mod.rs:Display for Arg"]}
{"id": "C45", "title": "From one client's builder to another client's callback", "statement": "The messages of an event built in text or binary mode, received by an idle client with an open connection, run the callback in charge of the namespace and name exactly once, after the last message, with argument values equal to those sent and a reply handle with the id iff there is one; nothing else happens and no message is an error. A reply with at least one argument likewise runs exactly the waiting ack callback and uses it up.", "quantifier": "every event, namespace, id, argument list, mode and registry", "why_tests_cant": "All documents, strings and attachments, composed over builder, engine, decoder, receiver and registry.", "anchors": ["socket-io-protocol/src/socket/ser.rs:PacketBuilder", "socket-io-protocol/src/socket/de.rs:deserialize", "socket-io-client/src/receiver.rs:Receiver::process_packet"]}
{"id": "C47", "title": "A panicking callback disables the registry for good", "statement": "If a callback panics while a message is dispatched, the connection task ends with that panic. From then on every registry call of the application and every send of an event with a callback panics and changes nothing, no callback runs, nothing is received or written, and close reports the panic (or a timeout, or that it was called before). As long as no callback has panicked, registry calls and sends with callback work.", "quantifier": "every schedule of the client with its task, every message, every moment of the panic", "why_tests_cant": "Unbounded interleavings after the panic.", "anchors": ["socket-io-client/src/receiver.rs:Receiver::process_packet", "socket-io-client/src/lib.rs:fwd_cbs", "socket-io-client/src/emit.rs:EventArgsBuilder::send"]}
{"id": "C46", "title": "A waiting close can return, queued messages can be written, released tasks can be dropped", "statement": "From every state in which a call of close waits there is a continuation by the task and the peer alone in which it returns the result of the task: the task finishes the group it has begun, takes nothing more from the queue, and ends with the stream. As long as the task lives and has not seen a close request, everything enqueued can be written without any action of the peer or the application. A running task can be dropped exactly if its handle was given up by a timed-out or cancelled connect or close, or by dropping the client.", "quantifier": "every reachable state of the client with its task", "why_tests_cant": "Quantifies over all interleavings; absence of stuck states.", "anchors": ["socket-io-client/src/connection.rs:process_websocket", "socket-io-client/src/connection.rs:Connection::close"]}
{"id": "C48", "title": "An emitted event is what its builder was given, and sends go where they should", "statement": "Whatever send of an event puts into a queue consists of the messages of a packet with the namespace and name given to emit, the last value given to binary, the arguments in the order of the arg calls and, exactly if callback was called, the id the last such call gave out. Raw sends, replies and events are accepted by the queue exactly as long as the task lives and the application has not closed the channel, and are lost otherwise; an event goes into another queue exactly if the application has put another sender into the client. With a client, a reply handle or a begun send in hand, sending is always possible.", "quantifier": "every schedule of the client with its task, with builder calls interleaved arbitrarily with everything else", "why_tests_cant": "Unbounded interleavings and builder call sequences.", "anchors": ["socket-io-client/src/emit.rs:EventBuilder", "socket-io-client/src/emit.rs:EventArgsBuilder::send", "socket-io-client/src/lib.rs:Client"]}
{"id": "C49", "title": "Uses of the callback registry exclude each other", "statement": "Whenever a thread is about to read or change the callback registry it has the guard, so no two threads are there at the same time. The registry is at any time the result of the changes made so far, one after the other: none is lost, none is made twice. When the connection task calls the callback of an event, it is the callback the registry holds at that very moment; when it calls that of an ack, the callback has just been taken out of the registry.", "quantifier": "every interleaving of the connection task with any number of threads that use the registry, every behaviour of the callbacks", "why_tests_cant": "Unbounded number of threads and interleavings.", "anchors": ["socket-io-client/src/receiver.rs:Receiver", "socket-io-client/src/lib.rs:Client", "socket-io-client/src/emit.rs:EventArgsBuilder::send"]}
{"id": "C50", "title": "The engine decoder, exactly", "statement": "A websocket message is decoded exactly if it has the form of an engine.io message (type digit or byte, then the contents; for open packets the JSON object or array with the three fields, each once), no close packet was decoded before, and it comes in time (open only once, everything except text only after open); the decoded packet says what the message says. Otherwise the decoder gives exactly the error that belongs to the rule that is broken. The encoders make messages of these forms, and the packaging functions panic exactly if the text or bytes do not start with the type.", "quantifier": "every history of websocket messages", "why_tests_cant": "All texts and all histories.", "anchors": ["socket-io-protocol/src/engine.rs:Decoder::decode", "socket-io-protocol/src/engine.rs:parse_open", "socket-io-protocol/src/engine.rs:encode_message", "socket-io-protocol/src/engine.rs:encode_binary"]}
{"id": "C51", "title": "The exact wire text of events and acks", "statement": "For every event name, namespace, id, mode and list of arguments, finishing the builder gives exactly the websocket messages that the format prescribes: the type digits, the number of attachments, the namespace and comma unless it is the default one, the decimal id, and the JSON array of the name and the arguments that could be serialized, written without spaces, with the shortest escapes and with placeholders numbered in order; then one binary message per attachment. For acks the same holds for any arguments, including the texts without opening bracket that are written when the first argument cannot be serialized.", "quantifier": "every name, namespace, id, mode and list of arguments", "why_tests_cant": "All texts and all nested arguments.", "anchors": ["socket-io-protocol/src/socket/ser.rs:PacketBuilder::{new_event,new_ack,serialize_arg,finish}", "socket-io-protocol/src/socket/args/serialize_attachments.rs:serialize", "socket-io-protocol/src/engine.rs:package_message"]}
{"id": "C52", "title": "Typed values arrive as they were sent", "statement": "For every list of typed values (booleans, integers up to 64 bits, finite floats, strings, byte strings, dynamic JSON values, options, newtypes, sequences, maps, tuples, structs, enums, nested in any way) handed over by their Serialize implementations as arguments of an event or a reply, in text or binary mode, deserializing each received argument with its own type gives the value that was sent. For events this holds in the callback in charge: it runs once, with these arguments. The conditions are: no null is written inside Some; documents are nested less than 128 deep; objects of dynamic JSON values do not start with serde_json's private key for raw values; if the packet has attachments, the first key of every map and struct is a text that is written without escapes and is not _placeholder; and the boundary between namespace and arguments is unambiguous (C15).", "quantifier": "every type, value, name, namespace, id and mode", "why_tests_cant": "All types, nested to any depth, and all values of them.", "anchors": ["socket-io-protocol/src/socket/ser.rs:PacketBuilder::{new_event,new_ack,serialize_arg,finish}", "socket-io-protocol/src/socket/args/serialize_attachments.rs:serialize", "socket-io-protocol/src/socket/args/deserialize_attachments.rs:deserialize", "socket-io-protocol/src/socket/args/mod.rs:Arg::deserialize"]}
{"id": "C53", "title": "Connect and disconnect packets", "statement": "The messages made by serialize_connect and serialize_disconnect for a namespace are read back by deserialize as the connect or disconnect packet of exactly this namespace, and a received connect or disconnect packet changes nothing: no callback runs, nothing is sent, no registration changes.", "quantifier": "every namespace, every registry and idle receiver state", "why_tests_cant": "All namespaces; the crate has no test that reads the made messages back.", "anchors": ["socket-io-protocol/src/socket/ser.rs:{serialize_connect,serialize_disconnect,serialize_header}", "socket-io-protocol/src/socket/de.rs:deserialize", "socket-io-client/src/receiver.rs:Receiver::process_packet"]}
{"id": "C54", "title": "The stream of received messages is cut into packets and dispatched in order", "statement": "The messages received on a connection are accepted exactly if they follow the engine.io protocol and their contents, cut in order into texts each followed by the attachments it announces, are well-formed packets that name an event or answer an awaited ack; the callbacks called are then exactly those for these packets, in the order of the packets, each chosen by the registrations made before the last message of its packet and given its arguments, attachments and reply handle. A packet incomplete at the end calls nothing, and messages of other kinds in between change nothing.", "quantifier": "every sequence of received messages of any length, every history of registrations, every execution of the client", "why_tests_cant": "Sequences of any length with every interleaving of control messages and registrations.", "anchors": ["socket-io-client/src/receiver.rs:Receiver::{process_websocket_packet,process_message,process_packet}", "socket-io-protocol/src/engine.rs:Decoder::decode", "socket-io-protocol/src/socket/de.rs:{deserialize,deserialize_partial}", "socket-io-client/src/connection.rs:process_websocket"]}
{"id": "C55", "title": "Between two clients everything arrives once and in order", "statement": "Let one client's messages be received by another client after an open packet. If every event and reply sent has a namespace that can be written, sendable arguments and an argument text that cannot be taken for part of the namespace, then as long as the second client's receiver has not failed, its callbacks are called exactly for the events and replies that were put into the first one's queue and have arrived completely, in that order, each chosen by the registrations at its last message and given arguments that denote the values sent. If the values are readable and somebody waits for every reply, the receiver does not fail. When both directions are connected, and the ack ids (64 bits) have not wrapped around, an ack callback runs only for an event that was sent, received with a reply handle and replied to, with the values of that reply.", "quantifier": "every pair of executions of two clients, every sequence of events and replies, every cut of the written messages, control frames in between", "why_tests_cant": "Unboundedly many events, interleavings of two clients and points of interruption.", "anchors": ["socket-io-client/src/emit.rs:ArgsBuilder::send", "socket-io-client/src/connection.rs:process_websocket", "socket-io-client/src/receiver.rs:Receiver", "socket-io-protocol/src/socket/ser.rs:PacketBuilder", "socket-io-protocol/src/socket/de.rs:deserialize"]}
{"id": "C56", "title": "What has come completely is acted on, and an answered event gets its answer", "statement": "Let one client receive what another one writes after an open packet, under the conditions of C55, and let its receiver not have failed. As soon as all messages of an event have come, the callback that was in charge when its last message came is called with the values sent, and with a reply handle exactly if the event was sent with a callback. When both directions are connected and all messages of a reply have come back, and the ack ids (64 bits) have not wrapped around, the callback of the one event that was sent under its id has run, exactly once, with the values of the reply.", "quantifier": "every pair of executions of two clients, every sequence of events and replies, every cut of the written messages, control frames in between", "why_tests_cant": "Unboundedly many events, interleavings of two clients and points of interruption.", "anchors": ["socket-io-client/src/emit.rs:ArgsBuilder::send", "socket-io-client/src/emit.rs:AckArgsBuilder::send", "socket-io-client/src/connection.rs:process_websocket", "socket-io-client/src/receiver.rs:Receiver"]}
{"id": "C57", "title": "Two connected clients never make each other's receiver fail", "statement": "Let two clients be connected with each other, so that at any time each has received, after an open packet and with control frames in between, only what the other one has written by then. If both send only events, replies and pongs that can be sent and read (C55), and the ack ids (64 bits) have not wrapped around, then neither receiver ever fails with an error, in particular nobody receives a reply that nobody waits for; on both sides the callbacks are called exactly for what the other one sent and has arrived completely, in order; and when a reply has come back completely, the callback of its event has run exactly once with the values of the reply.", "quantifier": "every joint schedule of two clients, every sequence of events and replies in both directions, any delay", "why_tests_cant": "Unboundedly many interleavings of two applications, two tasks and the messages in flight.", "anchors": ["socket-io-client/src/emit.rs:ArgsBuilder::send", "socket-io-client/src/emit.rs:AckArgsBuilder::send", "socket-io-client/src/connection.rs:process_websocket", "socket-io-client/src/receiver.rs:Receiver", "socket-io-client/src/callbacks.rs:Callbacks"]}
{"id": "C58", "title": "Two clients always make progress on a network of bounded capacity", "statement": "Let two clients be connected with each other by a network that holds at most n > 0 messages in each direction (a write waits until there is room). As long as both connection tasks run, one of them can receive, take a group from its queue, write a message or end a group, unless everything sent has arrived on both sides.", "quantifier": "every capacity, every joint schedule of two clients, everything they send", "why_tests_cant": "Deadlock needs full buffers in both directions at once; a loopback test with default buffers and few messages never meets it, and the absence of deadlock is a statement about all schedules.", "anchors": ["socket-io-client/src/connection.rs:process_websocket", "socket-io-client/src/connection.rs:Connection::connect"]}
{"id": "C59", "title": "What the connection task can do next, exactly", "statement": "At any time it follows from what was done and seen so far what the connection task can do. While it lives and is not inside a group it can receive any message, a stream error or the end of the stream; it can take exactly the next group that was put into the queue, unless it has seen the close signal; and it can turn to closing exactly if it has not done so and close was called, connect timed out or was cancelled, or the client was dropped. Inside a group it can do none of these, but write exactly the next message of the group (or fail to), and the group is over exactly when all of it was written.", "quantifier": "every execution of the client with its task", "why_tests_cant": "Quantifies over all interleavings, and says what is not possible as well as what is possible.", "anchors": ["socket-io-client/src/connection.rs:process_websocket"]}
{"id": "C60", "title": "Borrowing from a packet", "statement": "Reading an argument into a type that borrows text (&str) or bytes (&[u8]) from the packet succeeds exactly if reading it into the owned type of the same shape succeeds and the argument has no string with escapes where text or bytes are borrowed and no array where bytes are borrowed; the value is then the same. Text that is borrowed is the argument's text between the quotes, or an attachment that is the text in UTF-8. Bytes that are borrowed are an attachment, unchanged, or the bytes of the argument's text between the quotes.", "quantifier": "every argument of every decoded packet, every target type of the universe", "why_tests_cant": "Quantifies over all target types and all JSON texts; the unit tests have two borrowed targets.", "anchors": ["socket-io-protocol/src/socket/args/deserialize_attachments.rs:BinaryVisitor", "socket-io-protocol/src/socket/args/mod.rs:Arg::deserialize"]}
{"id": "C61", "title": "What reading an argument into a type gives", "statement": "For every target type, reading an argument of a decoded packet succeeds exactly if the argument has the form the type asks for, and gives exactly the value found there: integers in range, strings with their escapes decoded, arrays and tuples element by element with exactly as many elements as the type has, the members of an object by name (each field at most once, an absent field is None for an Option and otherwise an error, other members are ignored, in maps the last of several members with one key counts), variants by name, and at most 127 levels of nesting. Next to attachments, a placeholder where a byte buffer, a text, a sequence, a tuple, a struct or a dynamic value is expected stands for the bytes of the attachment with its number. Otherwise the result is an error; there is no panic.", "quantifier": "every argument of every decoded packet, every target type of the universe, every value", "why_tests_cant": "Quantifies over all target types, all JSON texts and all attachments; states which inputs are rejected.", "anchors": ["socket-io-protocol/src/socket/args/deserialize_attachments.rs:BinaryDeserializer", "socket-io-protocol/src/socket/args/deserialize_attachments.rs:BinaryVisitor", "socket-io-protocol/src/socket/args/mod.rs:Arg::deserialize"]}
{"id": "C62", "title": "A callback runs once at a time, and never again after a panic in it", "statement": "However many clients share an event callback, and however many threads and other callbacks call it, its calls do not overlap, and the k-th call finds the closure as the k calls before have left it. As soon as all calls have returned, it can be called again. If a thread panics in it, there is never another call of it: whoever tries panics at once. A callback that comes to call itself, directly or through others, never returns and keeps everybody else out. The registry of every client is used by one thread at a time. After the connection task of a client panicked, every use of its registry panics and changes nothing. As long as nobody panicked, taking a mutex never panics. If no code of the application panics, nobody does; a call in which the callback panics does not return.", "quantifier": "every number of clients, threads and callbacks, every interleaving, every behaviour of the callbacks", "why_tests_cant": "Unbounded threads and interleavings, callbacks with arbitrary behaviour.", "anchors": ["socket-io-client/src/callbacks.rs:impl_fnmut_callback", "socket-io-client/src/callbacks.rs:impl_fnonce_callback", "socket-io-client/src/receiver.rs:Receiver::process_packet", "socket-io-client/src/lib.rs:fwd_cbs"]}
{"id": "C63", "title": "Callbacks that take mutexes in an order never block anybody for good", "statement": "If the mutexes of the clients and of the callbacks can be ranked so that every callback takes only mutexes above its own and above those of the clients it may be registered with, then from every state every thread can be brought to its end. That is so in particular if callbacks use no registry and call no callback. Without such an order threads can block each other for good: two clients whose callbacks each change the registry of the other client, or two callbacks that call each other.", "quantifier": "every number of clients, threads and callbacks, every ranking with finitely many ranks, every reachable state", "why_tests_cant": "Absence of deadlock over all interleavings and all behaviours of the callbacks.", "anchors": ["socket-io-client/src/callbacks.rs:impl_fnmut_callback", "socket-io-client/src/receiver.rs:Receiver::process_packet", "socket-io-client/src/lib.rs:fwd_cbs", "socket-io-client/src/emit.rs:EventArgsBuilder::send"]}
{"id": "C64", "title": "Every message reaches the callback registered when it is served, with any number of clients", "statement": "A connection task that comes to its end without a panic has served each of its messages: at some moment it had the guard of the registry of its client and entered the callback that this registry held for the event at that very moment, or there was none; for an ack it took the callback out of the registry and ran it, or there was none, and a second ack with this number finds nothing. The registry of every client is at any time the result of the changes made to it so far, one after the other: none is lost, none is made twice, none comes from another client. A callback that returns (and calls no other) has made exactly the changes of its code, in that order.", "quantifier": "every number of clients, threads, callbacks and messages, every interleaving, every behaviour of the callbacks", "why_tests_cant": "Unbounded threads and interleavings.", "anchors": ["socket-io-client/src/receiver.rs:Receiver::process_packet", "socket-io-client/src/callbacks.rs:Callbacks", "socket-io-client/src/lib.rs:fwd_cbs"]}
{"id": "C65", "title": "What is wrong with a message that is not accepted", "statement": "After messages that were accepted, whose contents are cut into packets in exactly one way, a message gives an error exactly if there is something wrong with it, the error tells exactly what, and nothing is wrong in two ways: the engine packet (anything after a close packet, a second open packet, a close, ping, pong or binary packet before the open packet, an open packet that is not readable, an unknown packet type), a text that is no packet, arguments that are no JSON array, arguments of a connect or disconnect packet, an event or ack without arguments, an ack without id, an attachment count at a packet without attachments, a binary message that belongs to no packet, a text in the place of an attachment (found when the packet is complete, the first one is told), an event whose name is no string, an ack nobody waits for. Errors about packets name the packet type and hold the text. It makes the receiver panic exactly if it has a number of more than 64 bits or completes a packet that cannot be put into the log. A message that is not accepted calls no callback, sends nothing and leaves the registrations as they are. In the running client the connection task ends with such an error only directly after such a message.", "quantifier": "every sequence of accepted messages with every history of registrations, every next message, every log level, every execution of the client", "why_tests_cant": "Quantifies over all message sequences and all wrong messages; the unit tests have a dozen wrong packets.", "anchors": ["socket-io-protocol/src/socket/de.rs:deserialize", "socket-io-protocol/src/engine.rs:decode", "socket-io-client/src/receiver.rs:Receiver::process_websocket_packet", "socket-io-client/src/receiver.rs:Error"]}
{"id": "C66", "title": "The ten seconds", "statement": "`connect` (from the moment the stream is there) and `close` (from the call) wait ten seconds and no longer. `connect` returns a timeout only at a poll ten seconds or more after the stream was there; from then on every poll returns; before that a poll returns exactly if an error, the open packet or the end of the task has come, and then exactly that. The time is counted once for the handshake and the open packet together, and the error names what was being waited for. The function passed to `connect` has no limit. `close` returns a timeout only ten seconds or more after the call, from then on every poll returns, and the result of the task is returned at the first poll after its end unless the time is up; at the call itself no timeout is possible. A poll that does not return changes nothing but that a handshake that succeeded is over. connect can be polled exactly while it waits and its stream is there, close called exactly if no close is waiting, and polled exactly while it waits. While neither of the two is waiting, nothing depends on the time. Everything that happens with a clock also happens in the machine without one, and what is not part of the two calls can happen at any time as without a clock.", "quantifier": "every schedule with every passing of time, every order in which the branches of a select are polled, every point of every execution of the client", "why_tests_cant": "Quantifies over all schedules, all times and both orders of polling; the tests never wait and cannot choose the order in which select polls.", "anchors": ["socket-io-client/src/connection.rs:Connection::new", "socket-io-client/src/connection.rs:Connection::close", "socket-io-client/src/lib.rs:Client::new", "socket-io-client/src/lib.rs:Client::connect"]}
{"id": "C67", "title": "An executor that drops the connection task", "statement": "If the executor drops the connection task (for example because its runtime is shut down), which can happen at any point of an execution in which the task lives and only once, then everything before is an execution of the client as usual, and afterwards: no message is received, no callback is called, no message is written or gets into the queue; a waiting `connect` is ready and returns the client if the open packet had come and panics otherwise, a waiting or later `close` is ready and panics, and both can return nothing else but their timeout (or, for a second `close`, that it is already closed); everything the application sends is lost without it being told; the registry can be used as before, and everything the application has (the client, the callbacks, reply handles, the event it is building, the call it is waiting for) stays as it was.", "quantifier": "every execution of the client, every point at which the task is dropped, every continuation", "why_tests_cant": "Quantifies over all executions and all points of interruption; no test shuts down a runtime under a client.", "anchors": ["socket-io-client/src/connection.rs:Connection::new", "socket-io-client/src/connection.rs:Connection::close", "socket-io-client/src/connection.rs:process_websocket"]}
{"id": "C68", "title": "The two example programs", "statement": "Both example programs, under every server and schedule, are executions of the client, so everything proved of these holds of them. socketio_test.rs: the event it emits consists of exactly the text message 451-0[\"event\",{\"_placeholder\":true,\"num\":0},\"hello\"] and the binary message 04 de ad be ef; it is sent at most once, after the callbacks are registered, and exactly once when the program waits, closes or has ended without having panicked. Events named types go to the second callback as soon as it is registered, all other events of / to the first. Exactly the calls of the second callback that have a reply handle and printable arguments are answered, with the id of the event and the text message received. The ack callback runs at most once. Nothing else is written but pongs. Every call of a callback prints its line, in order. A reply handle is used or dropped before the callback returns. Both programs call close once, as the last thing, and leave it out only after a panic or when the message of ws_connect.rs could not be sent. The main function waits for a running callback with the calls that use the registry and with no others. While a callback runs, the registry stays as it is, nothing is read or written and no other callback is called. When none runs, the connection task can do all that the client allows and any message can be received, and the waiting of connect and close can always end as the client allows. ws_connect.rs sends nothing but one message 40NS, for the namespace it is given, registers its callbacks for / and that namespace, and ends when the message cannot be sent. The programs panic only if a server sent arguments that cannot be displayed, and once connected both can always go on to their end, if necessary by the time limit of close.", "quantifier": "every server, every schedule of main function, callback and connection task, every namespace argument", "why_tests_cant": "Quantifies over all servers and all schedules; the examples are not tested at all.", "anchors": ["socket-io-client/examples/socketio_test.rs", "socket-io-client/examples/ws_connect.rs"]}
{"id": "C69", "title": "What the texts of errors tell", "statement": "Whatever other crates print, two errors with the same text are of the same variant, at every level (client, receiver, engine.io, socket.io, arguments, and the step that timed out). The text of an engine.io error that quotes a text, binary, ping or pong message determines the message; the text of a socket.io error determines the error with the message it quotes, the name of the packet and the counts, except for errors of the JSON library. Every error of the decoder is one of these. The text of a placeholder error determines its number and the number of attachments, that of an address error its kind and the scheme. The text of an engine.io error never contains a control character, whatever the server sent; that of a socket.io error contains the text message as it was received. The text says in words what went wrong, from the outer variant to the inner one, with the numbers in their order (attachments received before attachments announced, placeholder number before the number of attachments), and an address error contains the address; the two attachment counts are those of the attachments that came and that the packet announced, and they differ. A quoted string is a Rust string literal for it, which stands for no other string whatever follows it; quoted bytes are an array of decimal numbers.", "quantifier": "all errors, all messages, all texts printed by other crates", "why_tests_cant": "Injectivity over all errors and all quoted messages.", "anchors": ["socket-io-client/src/lib.rs:37-63", "socket-io-client/src/receiver.rs:18-30", "socket-io-protocol/src/engine.rs:33-47", "socket-io-protocol/src/socket/mod.rs:44-60", "socket-io-protocol/src/socket/args/mod.rs:31-42"]}
{"id": "C70", "title": "What the log tells", "statement": "In every execution, with all levels logged: one line `Received WebSocket packet` for every message received, in order, so that the log determines what was received up to the frames of close messages. The lines `Sending websocket packet` show the messages of the groups taken from the queue, one for each written and at most one more, for the one being written. `received message` shows what arrived before the task saw the request to close, and the error that ended it, unless that came from a write. `got None, stream ended` and `Sending close message` are there, once, exactly if the stream ended without a request to close, or a request to close was seen. `Received open` is there, once, exactly if connect succeeded, and shows its open packet. The engine.io messages, open packets and close frames are shown in order, each once. A packet is logged, with its id and the arguments, just before its callback is called; at level info the log has one entry per packet in the order they came, and what came without being logged is at most one unfinished packet and the message the task ended with. The lines of a received message come in this order: that of the loop, the websocket message, the engine.io packet in it, the packet complete with it. The lines about packets are at level info, those about the close of the websocket at debug, all others at trace. Every record is one line. A websocket message is shown as its kind with, in parentheses, its text as a Rust string literal or its bytes as an array of decimal numbers. There is never a warning. Logging has no effect on the client except for the panic of a packet that cannot be displayed.", "quantifier": "all executions of the client, all server messages, all texts printed by other crates", "why_tests_cant": "All interleavings and all messages; absence of warnings and of line breaks is a statement about all logs.", "anchors": ["socket-io-client/src/connection.rs:76", "socket-io-client/src/connection.rs:126-176", "socket-io-client/src/receiver.rs:56-136", "socket-io-protocol/src/engine.rs:19-31", "owned_subslice/src/lib.rs:75-83"]}
{"id": "C71", "title": "The log names the kind of engine.io packet that was processed", "statement": "When an engine.io packet has been processed, the log has a line that says an engine.io packet of its kind (open, close, ping, pong, message) was received, and none that says so of another kind.", "quantifier": "all executions of the client, all server messages", "why_tests_cant": "All messages in all states.", "anchors": ["socket-io-client/src/receiver.rs:76-102"]}
{"id": "C72", "title": "Everything two connected clients send each other gets through, whatever the schedule", "statement": "Two clients are connected with each other, each has sent events and replies the other one can read, and from now on the applications wait and the network works. Then in whatever order the two connection tasks do their work (receive the next message, take a group from the queue, write a message, end a group), neither fails, ends or sends anything else, and every piece of work leaves exactly one piece less to do, so that the work ends after a number of pieces that is known from the start: one for each message on its way, two for each message not written, two for each group not begun and one for a group that is begun. When neither can work any more, each has received everything the other one has written; and unless the other one has seen a request to close, that is everything it has sent, and the callbacks have been called for exactly that, in order, each once.", "quantifier": "all pairs of executions, all orders of work, all events and replies that can be sent and read", "why_tests_cant": "All interleavings of two clients, and all messages.", "anchors": ["socket-io-client/src/connection.rs:103-176", "socket-io-client/src/receiver.rs:34-136"]}
{"id": "C73", "title": "What the application can do next, exactly", "statement": "At any time it follows from what was done and seen so far what the application can do with the client, with senders of its queue and with an event it is building (unless it has lent the client to a waiting call of close or to an event that is being built). It can send a group itself, clone a sender and close the channel exactly if it has a sender: the one in the client it has not dropped, unless it took that out and put none back, or one of those it cloned or took out and has neither dropped nor put back. It can call the registry (set and clear event callbacks and fallbacks) exactly while it has the client, and drop the client exactly if in addition no call of close waits and no event is being built. It can begin an event exactly if it has the client and no other event is being built; and then the calls come in their order: options, then args, then arguments, then send; until send it can drop the event, and a panicking call is the end of it.", "quantifier": "all executions, all arguments", "why_tests_cant": "What is possible after every history of calls, not only after those tried.", "anchors": ["socket-io-client/src/lib.rs:28-36", "socket-io-client/src/lib.rs:174-204", "socket-io-client/src/emit.rs:16-101"]}
{"id": "C74", "title": "connect and from_stream as a whole", "statement": "A text has either exactly one error (the parser rejects it, or the scheme is none of http, ws, https, wss) or exactly one place to connect to: host, port, encryption and the exact url of the handshake. connect and from_stream do nothing before their first poll. With a bad text the first poll returns the url error, carrying the text as given and the fault, and the function of the application is not called. With a good text connect calls that function exactly once, with host and port; an error of it is returned as a connection error, a panic of it goes through, and if the call is dropped meanwhile nothing more happens; a stream starts the handshake with that url. from_stream starts the handshake at once. From there on everything is as in an execution of Connection::new, whose result is returned as it is. These are all executions, and all of them are possible. The call returns at most once; a client only after an open packet was received, with the session id of the first one; and it panics only if the function of the application did or the task ended without an open packet. The text of a returned error begins with 'Failed to parse URI ' exactly if the text was bad, and then goes on with the text as given, a colon and what the url crate prints or 'Invalid scheme: ' with the scheme in quotes; it begins with 'Connection error: ' exactly if the function of the application gave an error, and goes on with what that error prints; and otherwise it is the text of the error of the connection, which tells which error it is.", "quantifier": "every text, every parser that gives http, ws, https and wss urls a host, every behaviour of the function of the application, all executions", "why_tests_cant": "All texts and all interleavings after the handshake; tests use one stream and one url.", "anchors": ["socket-io-client/src/lib.rs:37-63", "socket-io-client/src/lib.rs:104-167", "socket-io-client/src/lib.rs:206-226", "socket-io-client/src/connection.rs:32-52"]}
