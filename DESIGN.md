# Formal model of socket.io-client-rs (Lean 4)

## Approach
The model is a set of total, computable Lean functions over `List Char` (text, with UTF-8 byte
offsets), `List UInt8`, `Nat` and plain structures, one definition per Rust function, each citing
file and lines. Panics are explicit outcomes (`Res.ok | err | panic`), never totalised away. The
client with its connection task is a labelled transition system: a list of actions is an
interleaving of the task with the application; properties are proved over all such lists.

Theorems named `CNN…` belong to property CNN of `properties.jsonl`. If the code does not have a
property, there is a `CNN_counterexample` (a concrete witness, evaluated by the kernel) and a
theorem with suffix `_partial` for what does hold. Beside each theorem stand `example`s showing that its
hypotheses can be met and its conclusion is not empty.

## Modules (under `lean/Verif/`)

| module | models |
|---|---|
| Text | Rust strings: characters, UTF-8 byte offsets, byte-range slicing (with panic), decimal printing/parsing of u64 |
| OwnedSubslice | owned_subslice/src/lib.rs |
| Engine | socket-io-protocol/src/engine.rs (encode, decode, state machine, open packet) |
| Regex | leftmost-first backtracking semantics of the regex crate + the pattern of de.rs |
| Json | serde_json: grammar, RawValue scanner, `Value` reader, compact printer |
| Serialize | serde data model, plain serializer, serialize_attachments.rs |
| Builder | socket/ser.rs |
| Decode | socket/de.rs, socket/mod.rs |
| Args | socket/args/mod.rs, `Display` of packets |
| Deserialize | `Arg::deserialize`, socket/args/deserialize_attachments.rs, for a universe of target types |
| Callbacks | socket-io-client/src/callbacks.rs |
| Receiver | socket-io-client/src/receiver.rs |
| Client | socket-io-client/src/{lib,connection,emit}.rs: connection task, queue, close, connect, emit, replies |
| Lock | the registry mutex in receiver.rs: which lock/unlock/call sequence each dispatch executes |
| Url | url handling and choice of transport in lib.rs/connection.rs |
| RepoTests | the code base's own 30 unit tests, carried out on the model (all pass) |

`Spec/*` holds the vocabulary of the property statements (grammars, denotations, histories, trace
projections), written without the model's functions. `Props/*` holds the property theorems,
`Lemmas/*` everything in between.

## How the properties are stated
* Packets: `Spec.Pkt` is the grammar of a packet text (kind, count, namespace, id, argument text); `Wf`, `Longest`, `Fits` are the side conditions of the wire format. C09, C13–C19 relate decoder results to it.
* JSON: `IsVal/IsText` is the RFC 8259 grammar on trees, `Denotes` what a tree denotes, `Reads` the dynamic value of a document, `Gets` the one serde_json reads (they differ only for objects that start with its private key for raw values, `NoRaw`), `Filled`/`FilledTree` the replacement of placeholders.
* Serialization: `SVal` (serde data model) and `docOf` the document a value stands for, with byte strings as leaves.
* Registry: history of operations, last matching operation decides.
* Receiver: list of received payloads; what is dispatched is given by the packets those payloads spell.
* Client: traces of observable events; projections (`written`, `groups`, `arrived`, `ackRuns`, …) in `Spec/Client`.
* Locks: traces of lock/unlock/use instructions per thread. C49 proves that uses of the registry exclude each other, which is why `Client` may take a dispatch as one action.
* `CallLock.lean` (C62, C63, C64): any number of clients and threads, with a mutex per registry and one inside every event callback (callbacks.rs:15, shared by clones), callbacks that call callbacks, panics and poisoning. An `FnMut` may do something else at each call: its behaviour depends on the number of the call. Taking the guard of a callback and entering the closure is one step. A panic ends its thread; `catch_unwind` by the application is not modelled.
* `Decode.lean` with the packet names of the errors (socket/de.rs:123-240), `Engine.lean`, `Receiver.lean` (C65): `Spec/Rejected.lean` says for every message after accepted ones what is wrong with it. `Cut` cuts the messages before it into packets, `Wrong` names the fault, `Fatal` the panic.
* `Timed.lean` (lib.rs:115-158, connection.rs:46-75,95-102; C66): the client machine with a clock. `Connection::new` and `close` are polled at times the schedule chooses; a poll sees whether the `Delay` has run out and goes through the `select!`s in an order the schedule chooses. Every execution with time is one of the machine without (`C66_untimed`), so all other theorems hold there too.
* `Executor.lean` (connection.rs:71,100,124; C67): the client machine under an executor that may drop the task between two polls, with what the remote handle and the channels then do.
* `Example.lean` (socketio_test.rs:49-76, ws_connect.rs:53-70; C68): the two example programs on top of the client machine. The main function, the callback that runs and the connection task take turns in any order; a running callback holds the task and the lock of the registry. Simplifications: `println!` to the standard output never fails (only `Display for Args` may panic, before the line is there), the wait of socketio_test.rs is a step without effect, and the parts before `connect` (arguments, runtime, logger) are left out.
* `ErrorText.lean` (lib.rs:37-63, receiver.rs:18-30, engine.rs:33-47, socket/mod.rs:44-60, args/mod.rs:31-42; C69): the texts `thiserror` generates for the errors, with `{:?}` of strings, bytes and websocket messages spelled out. What other crates print, the derived `Debug` of packets, JSON values and close frames, and which characters beyond ASCII `{:?}` escapes are a parameter (`Prints`).
* `Log.lean` (receiver.rs:60-136, connection.rs:76,132,136,151-153,166; C70, C71): every record of the `log` macros of the library, action by action, with all levels on. `{:?}` of websocket errors and close frames is a parameter (`LogPrints`). What a logger adds to a record is left out.
* Schedules: C46–C48 speak of the list of actions itself (`sched_induct`), e.g. the calls a builder was given before `send`, or that from every state some continuation by the task alone lets a waiting close return.
* Displayed text (C44): `Display` gives exactly the text of the packet with its arguments filled in; a float prints as its literal.
* Engine (C50): `Wire` is the form of an engine.io message, `InTime` and `Fails` the rules of the handshake; decoding is an equivalence with these over histories.
* Wire text (C51): `wireOf` is the list of websocket messages a packet is written as, character by character (`Doc.text`, `quoted`), from the documents of the arguments; the builder's output equals it.
* Whole connections (C54): `EngineOk` is the engine protocol as a grammar of message sequences; `Dispatched` cuts the contents into packets and says which calls they need (`Who` is who is registered at that moment). The receiver accepts exactly these sequences and makes exactly these calls.
* Two clients (C55): the second one receives, after an open packet and with control frames in between, a beginning of what the first one writes (`dataOf (inbox trB) <+: o :: written trA`). `Sent` is what the application asked for, `Delivered` which calls that needs at the other side. In C55 and C56 there is no joint step relation: the two executions are related only by the messages, which covers every interleaving and any delay.
* C56 is the other direction on the same pair of executions: for each thing sent whose messages have all come, at which received message it is acted on and by whom; and that the callback of an answered event has run exactly once.
* C57 does need the order of time: `Joint` (Spec/Pair.lean) lets two clients take turns, each receiving only what the other one has written by then. The order in the network is that of the websocket; delay is unbounded, loss is only loss of the rest.
* C58 (Spec/Bounded.lean) adds a capacity to that: `Does` is one step of a client with at most `n` of its messages on their way, `Blocked` is the state where both write and neither has room. Capacity is counted in messages, not in bytes, and control frames take none; the buffers of tungstenite, the socket and the kernel together are one number.
* C72 (Spec/Drain.lean) is the liveness of the pair of C57: `Chore` is a piece of work of one of the two connection tasks, `Chores` any number of them in any order, `workLeft` the number of pieces left. A network without limit is assumed; C58 shows what a limit changes.
* C59 (Spec/Ready.lean) says when the task can do what: `TaskAlive`, `Waits` (nothing half written) and `Writes` are read off the trace, and each step of the task is possible exactly in these cases.
* C73 (Spec/AppNext.lean) says the same of the application: `Logged` is an execution with what was seen at each action, `HasClient`, `HasSender` and `stage` are read off it.
* C74 puts the url decision (C39) in front of the executions: `Verif/Connect.lean` is `Client::connect` and `Client::from_stream` from their first poll on, with `Url::parse` as a parameter and the function that makes the stream as an action of the environment (ready, error or panic). `from_stream` does not look at host and port; the model takes the same plan for both, which makes no difference for a parsed url because `parse_url` has checked the host.
* C60 (Spec/Borrow.lean) compares a type that borrows from the packet with the owned type of the same shape (`owned`); `Borrows` says that there is nothing to decode at the borrowed places.
* C61 (Spec/Yields.lean) says for every target type which syntax trees are read and what the value is (`Yields`), with and without attachments; `ReadPart` is the part of a number that a 128-bit target reads next to attachments. The converse directions (what is *not* read) are only there.
* Connect packets (C53): the text the two functions make is compared with what `deserialize` accepts.
* Typed values (C52): `Gives` relates a type, a value and what its `Serialize` implementation hands over; reading an argument with the type gives the value back. `NoSomeNull` and `FirstKeys` are the conditions; an example beside the theorems breaks each of them.
* Urls: `HandshakeUrl` relates scheme, host, port and query pairs (decoded independently) of the requested and the dialled url.

## Findings (properties the code does not have)
* C04 after a failed first argument of an ack the builder's text is broken (`first` is cleared before the failure).
* C07 a sequence that starts with a u8 and contains something else gets a spurious element 4 (the header byte leaks).
* C10 text messages are handed out before the open packet.
* C13 an id or count of 2^64 or more panics in the decoder.
* C15 well-formed packets with an ambiguous namespace/argument boundary are rejected.
* C20, C22 lone surrogates or deep nesting panic in `to_json_value`/`Display`; bad placeholders panic in `Display`. So does an object that starts with the key `$serde_json::private::RawValue` if it has anything else than a JSON text in it.
* C02, C52 an object that starts with that key, sent by a peer or by a user, is read as the value of the text in it (serde_json's feature `raw_value`).
* C23, C24 several typed targets are read differently with attachments (string targets, options, short tuples, integer keys, escaped first keys, member order, tuple variants, borrowed targets). Next to an attachment a 128-bit integer target reads `1.5` as 1: the code does not check that the number ends where it stopped reading.
* C52 a typed value sent next to an attachment is not read back if a map in it has integer keys or starts with a key that needs an escape; `Some(None)` arrives as `None`.
* C28, C30, C40 with info logging on, a packet with a bad placeholder panics the task.
* C37 if the task ends before the open packet, `open.await.unwrap()` panics in `connect` (connection.rs:73).
* C38 the registry lock is held while a callback runs (receiver.rs:145,150): registering from inside a callback deadlocks; a panic of a callback poisons the registry. Two clients whose callbacks use each other's registry deadlock likewise (C63_clients).
* C03, C41 a reply without arguments is not readable as ack.
* C58 the task does not read while it writes (connection.rs:151-157): two clients with full buffers between them block each other for good.
* C53 `serialize_connect` and `serialize_disconnect` put the engine.io digit into the engine message: `deserialize` rejects what they make.
* C71 a pong is logged as `Received engine ping packet` (receiver.rs:97).
* Not a property, but worth knowing: the warning about a second open packet (receiver.rs:82) can never be logged, the decoder refuses such a packet before (`C70_warn`). A namespace reaches the log as it was sent, with any control character but a line feed (receiver.rs:131,135; example in `Props/LogLine.lean`).

## Trusted base
* The Lean kernel (Lean 4.33.0). No axioms are added; no `sorry`, no `native_decide`, no `bv_decide`. Concrete evaluations use `decide +kernel`.
* Axioms: every theorem of the manifest depends on a subset of `propext`, `Classical.choice`, `Quot.sound`. Those of C25, C26_lookup, C26_ack_lookup, C27 and C38 do not use `Classical.choice`.
* The reading of the source in /repo, and of the documented behaviour of the external crates as far as it is modelled: serde, serde_derive, serde_json, serde_bytes, regex, url, form_urlencoded, futures channels, std mutexes.

## Modelled, and how
* Strings are lists of characters with byte offsets; slicing off a character boundary is a panic.
* `u64` values are naturals below 2^64; parsing a larger decimal is a failure of `parse`, which the code unwraps.
* Floats are the literals they were read from; which literals are finite is a parameter (`fin`), quantified everywhere.
* What serde_json makes of a lone surrogate when asked for bytes is a parameter (`wtf8`), quantified everywhere.
* Maps (`Value::Object`, `BTreeMap`, registry `HashMap`s) are association lists; sorted where order is observable.
* Map keys as in current serde_json 1.x: strings, characters, integers, booleans, finite floats and unit variants are accepted, also behind newtypes and `Some`. (Early 1.0 releases reject booleans, floats and `Some`; /repo pins no version.)
* serde_json's recursion limit of 128, and its treatment of the private key for raw values when it reads a `Value`.
* Websocket messages are text or binary; other frame kinds are separate inputs of the machine as the code distinguishes them.
* Time: the client machine is untimed; a timeout can fire whenever its future waits, and the one `Delay` shared by handshake and open packet is modelled as two possible timeouts. `Timed.lean` adds the clock (milliseconds) and the polls on top: a `Delay` is ready at every poll at or after its deadline, and `select!` takes the first ready branch in an arbitrary order.
* Atomicity: one action of the task is the code between two suspension points. The registry mutex is held for the whole dispatch of a message, so a registry access of the application cannot fall into the middle of it. Sends that a callback makes are actions right after the dispatch.
* The futures channels: unbounded queue with sender count, `close_channel`, oneshot close and open channels.

## Not modelled
* The websocket handshake, TLS, the network and tungstenite's framing. A peer is an arbitrary sequence of received messages, errors and end of stream.
* `Url::parse`; a parsed url is the input (C39), or the parser is a parameter (C74). Host names are opaque.
* `Spawn` implementations that do something else than fail, run the task, stop polling it (an execution in which the task does nothing more) or drop it (C67).
* Panics, locks or other effects inside user `Into<EventCallback>`, `Drop` or `Display` code; user callbacks otherwise may do anything (they are actions, or panic).
* The texts other crates print into errors and logs, and the derived `Debug` of packets, JSON values and close frames (parameters of C69 and C70).
* Memory exhaustion; reference counts and addresses (`OwnedSubslice` is owner plus range).
* Target types of `Arg::deserialize` with `#[serde(...)]` attributes, and `RawValue` as target type. On the sending side likewise: derived `Serialize` implementations without attributes, and no `RawValue` or big-number arguments.

## Simplifications that enlarge behaviour (sound for safety)
* In the machine without time, `close()` waits in a state of its own also if the task has already ended; the code returns at once (so does `Timed.lean`, `C66_close_call`).
* A reply builder continues after a panicking argument.
* A write that fails may or may not have reached the peer.
* A waiting call of `close` and an event that is being built borrow the client mutably; the machine forbids only a second one of each kind, dropping the client, and (during an event) exchanging its sender, so it allows more than the borrow checker does. It also covers an application that leaks the future of `close`.

## Testing the theorems
`seeded/LOG.jsonl` records wrong variants of model definitions (made in a scratch copy), the claims
they break and the theorems that stopped compiling, and theorems tightened because a wrong variant
survived.

Two kinds of variants are used. A plain variant edits one definition. In the client machine a plain
variant already fails in the lemmas that connect `step` with the transition relation `Trans`, which
says little about the property theorems. So there are also *consistent* variants: the same edit is
made in `Trans`, and the connecting lemmas are skipped in the scratch copy. What fails then are the
invariants and property theorems themselves.

`theorems_failed` lists the first theorems that stopped compiling. For most variants these are helper
lemmas only, because Lean does not go on to the files that import a failing one. Many helper lemmas
describe the model exactly, so nearly any edit breaks them. That shows that the property theorems are no
longer proved by their present proofs, but not that their statements exclude the variant.

The entries `auto-…` come from a program that edits operators, constants and cases one at a time. Nobody chose a claim
for them: `claim_broken` says "not determined" and names a proof that failed. They show only which edits survive
(explained one by one) and say nothing about the strength of a particular statement.

So for a variant it can also be checked that a statement excludes it; `statements_refuted` names the property
theorems used. In a scratch copy the model is edited and built with all proofs skipped
(`debug.proofAsSorry`), so that only the definitions count. Then `False` is proved, without `sorry`, from the
statements of the named property theorems as hypotheses (all of them together, if there are several). Facts
used besides are theorems whose statements do not depend on the edited definition. The same
script must fail on the unedited model. For a line without `statements_refuted` only
`theorems_failed` is known; V10, UR1, J2, SR9 and BD7 turned out not to be observable. An edit that was tried again has a second line with the same
`id` or a note "Survived at first". Where at first no statement could be refuted, one was added or tightened;
`theorems_tightened` names it.
