# Mercurio in Lean 4: design of the model and the proofs

The code under /repo (an MQTT broker, client, storage and command line tools in
Rust) is modelled by total, computable Lean functions and the properties in
`properties.jsonl` are proved about those functions. Nothing is built or run from
/repo; the model was written by reading the source, and every definition carries
the file and lines it models.

## Layout (under `lean/Verif`)

| Directory  | Content |
|------------|---------|
| `Model/`   | the transcription of the code, function by function |
| `Spec/`    | small specifications that do not mention the model (MQTT topic matching, UTF-8, framing, abstract maps ...) |
| `Lemmas/`  | helper lemmas and inductions |
| `Props/`   | the property theorems, named `Cnn_...`, each with an `example` showing its hypotheses are met by a concrete case |

## Conventions

* Bytes are `UInt8`; buffers (`BytesMut`, `Bytes`, any `Buf`) are `List UInt8`. A
  decoder is a function from the unread bytes to `ok (value, unread rest)`,
  `err e`, or `panic`. After an error the code never looks at the buffer again (the
  connection is dropped, or the buffer was a clone), so the rest is not kept.
* `panic` is an outcome of its own: `get_u8` on an empty buffer, `unreachable!`,
  slice index, subtraction overflow with overflow checks on. The parameter
  `Mode` (`debug` / `release`) says whether integer overflow panics (cargo dev profile) or
  wraps (cargo release profile); theorems hold for both unless they say otherwise.
* `u8/u16/u32` are `UInt8/UInt16/UInt32`; `usize` is `Nat` where no overflow is
  possible, with explicit `% 2^32`, `% 2^16` where the code casts with `as`.
* Rust `String` is its list of UTF-8 bytes (`Str`); predicates on ASCII characters
  (`/ + # \0 : ,`) are predicates on bytes, which is the same thing for UTF-8.
* Asynchronous tasks are modelled by step functions over a shared state and lists
  of events (schedules); a lock-protected section is one step.
* Randomness (`Uuid::new_v4`), argon2, the clock, the network, TLS, the tokio
  runtime and SQLite's SQL engine are parameters or are replaced by their
  documented contract; see "Trusted base".

## Plan per property

| Id | Modelled | How it is proved |
|----|----------|------------------|
| C01 | `encode/decode_var_byte_integer` | round trip; case split on the number of base-128 digits, arithmetic |
| C02 | `VariableByteInteger::encoded_size` | same case split; prefix-freeness from C01 |
| C03 | decoder on all byte lists | classification by the first five bytes |
| C04 | `String`/`Bytes` codecs | direct; counterexample family for lengths > 65535 |
| C05 | `String::decode` with a UTF-8 validator | validator proved equivalent to "is the UTF-8 encoding of some list of `Char`" |
| C06 | reason table | complete table by `decide`, plus suffix lemma |
| C07 | property table | case split over the 27 constructors; negation for 0x19 |
| C08 | all `encoded_size` | induction over property lists / payload lists |
| C09 | all packet encoders | from C08 |
| C10-C14 | packet codecs | generic lemma "decoding the concatenated properties folds the field setters", then per packet |
| C15 | DISCONNECT/AUTH/PING | partial theorems + negations with witnesses |
| C16 | `ControlPacket::check` | from C01-C03 and C09 |
| C17 | server `read_packet` | induction over the chunk list with the invariant "buffer = strict prefix of what is left to send" |
| C18 | same | negation with witness, and general characterisation of what stays in the buffer |
| C19 | `parse` | negations with witnesses; positive for encodings (C10-C14) |
| C20 | `parse` | per packet type: panic-freedom proofs over all byte lists, or exactly the inputs that abort, by a calculus of aborting decoders beside that of accepting ones; debug against release builds by a relation on decoders; negations |
| C21 | `protocol.rs` | decision logic outright |
| C22, C23 | `topic.rs` | decision logic against an independent grammar |
| C24-C27 | topic tree | invariant: node at path p is present iff some subscribed filter has p as prefix; DFS proved to visit exactly the matching nodes |
| C28-C30 | broker + retained store | refinement to an abstract map; interleaving model with 2-step publish/subscribe |
| C31 | tokio broadcast channel contract + stream wrapper | invariant over send/receive schedules |
| C32, C33 | memory.rs, sqlite.rs | refinement to finite maps; simulation relation between both stores |
| C34-C41 | session.rs | decision logic per packet, invariants over packet histories |
| C42-C48 | session manager and handler | state machine over connection events; C39 and C44 also over whole histories with restarts, C48 over exchanges of any length |
| C49 | `auth.rs` PLAIN | grammar of the SASL PLAIN message |
| C50, C51 | timers | event schedules with timestamps; that the pings are not picked up (C18) makes C51 false |
| C52 | accept loop | induction over outcome sequences |
| C53-C55 | credentials and password file | round trip, map refinement |
| C56-C60 | client | composition of the client model with the server decoders; C58: each decoder on each beginning of what it accepts, then induction over the reads |
| C61 | `passwd` command + credential check | composition of C53-C55 |
| C62 | server state machine | invariant tying every subscription's position to the log of publications; induction over histories |
| C63 | listener + read loop + server | simulation: a byte-level history is the packet-level history of the packets in it |
| C64, C65 | server on byte streams | frame lemma "an event touches only its own connection", over all histories and interleavings |
| C66 | locks and waiting | measure for termination, invariant for progress; negation by an invariant of the blocked state |
| C67 | `parse` on arbitrary bytes | weakest-precondition style "decoder gives only values with P" lemmas per decoder |
| C68–C70 | `daemonStart`, `serverStream` | inversion of the start sequence, and its converse for the exact condition to serve; PEM items as filterMap; C47 and C54 for the users; induction for the crowd of clients |
| C71 | `clientStream` | case analysis of the connector |
| C72, C73 | `parse` against a relational grammar (Spec/Grammar.lean) | each decoder is exact for a relation "these bytes say this value": sound and complete, composed along the monad; permutations of properties by counting kinds |
| C74 | `System.step`: the server and any number of built-in clients joined by byte streams | one invariant of the whole system (what each side has sent is a list of packets, the other side is at a packet boundary of it), then the server's C62 between two states and the two packet streams are put together |
| C75 | `System.step` | induction over the later events with the invariant of C74 and "everything this client has in transit is something the server accepts"; negation for the ping: once the unread byte of a PINGREQ is in the buffer it stays there |
| C76 | `parse`, `Packet.encode`, `Session.processIncoming` | `Spec/V3.lean`: the packets of 3.1.1 as data and bytes; CONNECT, acknowledgements and the answers by computation over all of them; negations in general: no 3.1.1 PUBLISH is read as what it says (the payload is shorter by the properties read, and these have at least one byte), every SUBSCRIBE and UNSUBSCRIBE of up to 256 bytes is refused, every message sent has one byte too many |
| C77 | `Server.step` | that options make no difference by unfolding; own messages and retained messages from C62; negations in general | 
| C78 | `Net.step` | invariant "no publication has a packet identifier and an invalid QoS" over byte histories (from C67), every forwarded packet can be encoded, C64 for the other connections; for packets read, C34 and C136; for first packets, C46, C47 and C136 |
| C79 | `Process.step` | a history of the process is a history of connections (C63's invariant), an ended connection never comes back; negation in general |
| C80 | `runPublish`, `SubArgs.options`, `cliPrint` | from C56, C60, C59; negations in general |
| C81 | `Client.step` | cases for one step, induction over the run after the end; negation in general |
| C82 | concurrent walks through the topic tree (`Model/Walk`) | invariant: what a subscription has plus what the unfinished walks will still send is an interleaving of the publications begun; termination measure on walks |
| C83 | topic tree, retained store | refuted for all such filters and topics from C24 and C29; what holds: the first levels are equal |
| C84 | server | simulation between a history and the same history with bare packets, for all events |
| C85 | topic tree, server | refuted for all such filters from C24 and C37 |
| C86 | server | refuted for every admitted CONNECT from the effect of `start`; partial from the same |
| C87 | server, codec | invariant of the recorded publications over all histories; refuted for all wills by inversion of the decoder, and by a collision |
| C88 | broker | projection of the step by step runs onto those of the topic tree (C82), invariant of the storage; agreement refuted by a run, proved for one publisher |
| C89 | whole server, step by step | simulation onto the calls of C88, a phase invariant per connection, a measure for the steps left, an invariant tying each subscription's stream to its channel; histories of the one-event-at-a-time server as runs of the step-by-step one |
| C90 | callers of the client (`Model/ClientQueue`) | invariant: calls made = calls done ++ calls waiting, with answers and packets written; a drain argument for the answers |
| C91 | as C90 | bound on kept events by induction; general refutations of the other parts |
| C92 | server on byte streams | invariant over all histories; an incomplete packet is shorter than the longest one |
| C93 | whole server | exact characterisation of the sessions and channels kept, by induction over histories; refutations in general; bounds for what is bounded |
| C94 | `encoded_size` of packets and payloads | refutation for every memory layout and every packet type; the payload's size by computation for all payloads |
| C95 | codec of the CONNECT payload on its own | exact result of decoding for all payloads; refutation for every payload with more than a client identifier |
| C96 | builder of `ConnectOptions` and `Will` | induction over the list of calls |
| C97 | `MqttClient::connect` with the times of the network as input | case analysis on the outcome of each step, for all timings; general refutations for the time |
| C98 | `Display` of errors and reason codes | complete tables for the constant texts; the tags of the others differ in their first letters, whatever follows |
| C99 | application to application, with a disconnect | invariant `Heeded` (what the server still has to act on is a list of good packets, possibly ended by DISCONNECT) over steps of the system, on top of C74. The client's `close` with unread input, which on TCP may reset the connection, shows in the model as an I/O error of the server (`serverClose`) and is excluded by the hypothesis `Kept`. Negation for a client that has pinged from that of C75. |
| C100 | application to application, the other direction of C74 | for every packet the server has sent: it answers a packet of this client, or a delivery for a subscription in the log of the server; both traced back to calls of applications (`sent_asked`, `sent_origin`). Other clients may have the same identifier (or none) as long as those and this client start clean, then they have sessions of their own (`Solo.apart`); so in C74, C75, C99 |
| C101 | tool to tool | C80 (what the tools call) joined with C99 (who publishes and leaves) and C100 (nothing else arrives): the events of a client are the image of the packets sent to it (`Down.events`), the printed lines that of the events; the server never sends DISCONNECT (`no_disconnect`), so no other line is printed |
| C102 | why a connection ended | by cases on the event of the system that ends the event loop (with C81); on the server by cases on the event that removes the connection; `Why` says what each reason stands for |
| C103 | the will, end to end | invariant over histories of the server (a session of a client that started clean has the will of its CONNECT, and nothing of it is published while the connection is open), then stepwise over the events of the system: what the event is that ends a connection; with C74 for the subscribers. Negation for a client that has pinged: the server finds no packet any more, so the event that ends the connection is one that publishes the will. Negation for a client with keep-alive 0: an invariant over the steps of the system, the packet that was published is followed by the panic of the timer, which skips the will. |
| C104 | retained messages, end to end | the SUBSCRIBE is the only packet about the filter among those the server got; nothing is sent for the filter before (invariant of C100), C62 from there on; then C74's tracking of what the client read |
| C105 | sessions across connections | the session table keeps the entry of an identifier (invariant); a subscription of a session is followed by its reference in the heap, on whatever connections it is served; then as C62; beyond sixteen waiting messages, the mailbox of C112 is followed through the time the client is away |
| C106 | whole system, progress | from any state that C75 reaches, a measure (bytes not read, packets not acted on, messages queued, events not taken) that a step of the connection decreases as long as something is in transit; negative: the beginning of a PUBLISH is never taken for a packet, and reads of at most 4096 bytes never complete a large one (invariant) |
| C107 | whole system, progress for all | as C106 with the sum of the measures over any list of clients: a step on one connection leaves the peers, the sockets and, because sessions are not shared, the sessions of the others alone |
| C108 | whole system, termination | every event that happens by itself makes a lexicographic measure smaller (packets other than acknowledgements the server has not acted on, messages waiting in the queues of the subscriptions, what clients have to read and act on, what the server has to read and act on), summed over the clients, or changes nothing; with weak fairness of the six kinds of tasks, the state in which nothing changes is quiet |
| C109 | `Net.step`, `System.step`, daemon | simulation: the run without the outsider's events agrees in the server and on every other wire, as long as the outsider's first packet is not an accepted CONNECT; invariant over the whole system that an outsider's client has read a beginning of the refusal; stages of an undisturbed connection are kept by the events of others; composed with C54 and C61 |
| C110 | `TimedNet.step` (byte streams with deadlines and stuck writes) | invariant: a history of packets explains the state, and each open connection has a deadline at most floor(1.5 k) seconds ahead; a run keeps a connection's clock or has heard a packet of it; negation: connections without CONNECT have no clock, a stuck one keeps its state; will: events in which the client sends nothing publish its will exactly when they end the connection; runs with and without a clock are the same runs of the server on byte streams |
| C111 | `TimedSystem.step` (the whole system with the deadlines of the server and the ping timers of the clients) | projections: a run is one of `System` and, for the server, one of `TimedNet`; invariants: a connected client has a ping timer at most one interval ahead, and has pinged or stopped when the interval and the lateness are over; negation: once the server has acted on a ping its buffer begins with a zero byte, nothing is heard any more, and C110 applies; positive part: C110 (c) |
| C112 | `Server.step`, `SubStream.poll`, `Receiver.recv` | refinement: the stream of the subscription and its channel are a mailbox (`Spec/Delivery`), induction on the history; the live part of the mailbox is the newest sixteen of what the receiver has ahead |
| C113 | `Server.step`, `Session.handlePublish` | positive: C62; negation: C112 on a burst of publications, then the mailbox holds the newest sixteen, and all that is drawn later is a sublist of it and of what comes later |
| C114 | `Session.handleSubscribe`, `Server.step` | positive: C62 for both periods; negation: C62 for the second one, in which only retained and later messages are due |
| C115 | `Server.saveAfter`, `Server.start`, `MemoryStore` | C41: what is sent again is what is unacknowledged; induction on the history for the identifier; negation: PUBREC leaves the record in place |
| C116 | `Session.messageOf`, `Session.outgoingPacket`, `Server.retryPacket`, `willMessage` | the log of publications: with no flag in the history there is none in the log; case analysis of the event; negation: C112 |
| C117 | `Server.lifeStep`, `Server.lifeRun` | a start forgets the state, so the history before it has no part in what follows; then C44, C41 and C112 for the history since the start |
| C118 | `Server.start`, `Server.find`, `Session.restoreSubscriptions` | invariants: the identifier is not in the table of sessions, the session of the connection keeps the identifier; the stored state is that of the last SUBSCRIBE (C39); refinement to a fresh mailbox (C112) |
| C119 | `Server.step`, `Session.processIncoming`, `Net.step` | noninterference by a simulation between two runs: sessions that agree in CONNECT, AUTH state and set of filters give the same answers and stay so; events of others change nothing (C64) |
| C120 | two executions | the log as a function of the step; a server without passwords: every step commutes with forgetting the passwords in the sessions, but for the check of credentials, which agrees by hypothesis |
| C121 | the log | by cases on the event, which lines are warnings with the given beginning; invariant: no line feed in the identifiers and wills of sessions and storage; negations: for every text a CONNECT that forges it |
| C122 | the log | induction on the history; by cases on the event which lines begin how; the calls of an event (`step_log`) against the lines of `publish_will` |
| C123 | server | replacing payloads in the whole state commutes with every function of the model (naturality), by induction on the topic tree, the streams and the history; no invention: the replacement that changes just one payload |
| C124 | the log | from C123 with the replacement that blanks all payloads; negation at the debug level |
| C125 | server | renaming in the whole state (keys of the maps included) commutes with every function of the model |
| C126 | server | renaming of levels in the whole state (the topic tree and the keys of the maps included) commutes with every function of the model |
| C127 | the printed text as a function of the events | a line ends at its line feed, a topic at the first colon with a space; one payload printing like two messages in general |
| C128 | delivery (C62) and mailbox (C112) theorems, with the sources of publications | what the broker accepts from a client is what arrived on its connection, in order; a sublist of it passes through one subscription; across subscriptions the events `deliver` may come in any order |
| C129 | two executions | the loops over the filters of two packets compose; saving the subscriptions in between is overwritten and read by nothing (commutation) |
| C130 | Spec/V5.lean: the packets of a server as data and bytes after the standard, with allowed reasons and properties; obedient clients | invariants over histories with restarts: sessions are of version 5, messages and stored messages have non-zero identifiers, sizes fit; then each encoder is compared with the bytes of the standard; wildcards and AUTH by injectivity of the frames; for the system with built-in clients: the history of packets behind the bytes (C62) consists of obedient events, because the client library only makes obedient packets |
| C131 | Spec/Client5.lean: the packets of a client as data and bytes after the standard, with allowed reasons and properties; legal calls and options | each encoder is compared with the bytes of the standard; the counter by induction over the turns; in the system, all bytes written are those of the turns, by invariant; the false parts by injectivity of the frames |
| C132 | Model/Crash.lean: the handling of an event as list of storage calls and packets written, in the order of the code; a crash leaves a beginning of it | the effects are shown to add up to the step of the server; storage calls precede writes; each table is written at most once; C39 and C41 for what clients see; negations for the CONNACK and for the removals of a clean start |
| C133 | Spec/Plain.lean: the plain broker as relation between what it knows before and after an event, all tables being functions | simulation: the abstraction of a reachable server takes a step of the plain broker at every event (C112 for mailboxes, C24 for the tree, C41 for unacknowledged messages); the freedom of the plain broker is bounded by a theorem of its own; with C63 (bytes stand for packets) it holds for bytes on connections |
| C134 | `Server.step`, Spec/Order.lean (what an event publishes and looks at) | an event of a connection is one change of the plain broker of C133 that depends only on the own account and on the retained messages it looks at; changes of different accounts commute unless their messages meet |
| C135 | `Server.trace`, Spec/Listen.lean (groups, names, filters) | simulation between the plain broker for all and the one for the group: equal on the names, accounts and connections of the group and on the retained messages its filters match; events of others change nothing of these; on byte streams (`C135_bytes`) with the event history behind the bytes from C133 |
| C136 | `Packet.encode`, `Server.step`, `Client.step`, `buildConnect` | the only aborting call is the size of a variable byte integer; case analysis on the packets both sides build: none carries a property block that is too big |
| C137 | `Net.step`, `Client.run` | invariant on the wire (nothing, a refusal, or CONNACK and followers) over byte histories, with C136 for the bytes; for the client induction on the calls and C81 for after the end |
| C138 | `Server.step`, `Net.step` | one step writes at most one answer beside messages; induction on the history, with C34 for the converse, C63 for the bytes that were sent as packets, and an invariant on the wire for all bytes |

Properties that the code violates are kept in full in `properties.jsonl`; the model
has a theorem with the negation (in general where possible, otherwise on a concrete
witness) named `..._false` and a `_partial` theorem for the part that holds.
`MANIFEST.json` is generated by `tools/manifest.py` from the theorem names and their
doc comments.

## What is modelled

| Code | Model | Left out |
|------|-------|----------|
| mercurio-core: codec.rs, reason.rs, qos.rs, protocol.rs, message.rs, properties.rs, topic.rs, error.rs | Basic, Codec, Properties, Topic, Texts | |
| mercurio-packets: all packet types, lib.rs | Packets, Sizes | the size of a value in memory is a parameter |
| mercurio-server: connection.rs; mercurio-client: connection.rs | Connection | I/O errors inside a read (they end the connection like an end of stream) |
| mercurio-server: topic_tree.rs, broker.rs | Topic, Storage, Race, Walk, Calls | |
| mercurio-storage: memory.rs, sqlite.rs | Storage | database and lock errors, the SQL engine (its tables are maps), schema migration |
| mercurio-server: session.rs, session_manager.rs, server.rs (`Handler`) | Session, Server, Net, Locks, Tasks | A panic of the connection task (decoder, keep-alive 0) is computed in Net; Server allows it at any time (`abort`); Locks and Tasks leave it out |
| mercurio-server: auth.rs | Auth | `argon2` and user supplied methods are parameters |
| mercurio-server: server.rs (timers, accept loop), mercurio-client (ping timer) | KeepAlive, Timed, TimedSystem | Timed: acting on a packet takes no time unless a write gets stuck; how late the runtime attends to a timer is a parameter. TimedSystem: Timed and the clients of System with their ping timers; writes of clients return at once |
| mercurio-client: client.rs, options.rs, event.rs; mercurio CLI: main.rs, common.rs | Client, ClientQueue, ClientOptions, Dial, Cli, Tls | the network during `connect` is a parameter (results and times); the parsing of the command line (clap) is not modelled; `from_utf8_lossy` is a parameter |
| mercuriod: main.rs `passwd`, credentials.rs | PasswordFile, Auth | reading a password from the terminal, file system errors other than "cannot be read" |
| the server together with the clients | System | what `Spec/System.lean` assumes of applications (`Ordinary`: texts and sizes within MQTT's limits, QoS 0 wills) and of the network (`ReadsWell`: no read of the client ends inside a packet where C58 shows that it must not) |
| tls.rs (server and client), mercuriod main.rs (server part) and config.rs, the CLI's TLS options | Tls, Daemon | rustls, PEM and TOML parsing, the file system and sockets are parameters |
| server.rs, session_manager.rs: order of storage calls and writes within a handler | Crash | storage calls that fail; two handlers cut short by one crash |
| server.rs (`run_with_tls`), shutdown.rs | Shutdown, Lives | what the runtime does to tasks when `main` returns |
| the server's log about connections: server.rs, session_manager.rs, session.rs | Log | the lines of the accept loop and of TLS; how `tracing` writes a message (its text is taken to be written as it is) and how `{:?}` prints; the logs of the client, the CLI and the daemon's `main` |

Each definition in `Model/` names the file and lines it models and its own
simplifications. The ones that matter most:

* Server: an event (a packet arriving, a message being forwarded, a connection
  ending) runs to its end before the next one starts. The interleavings inside
  `Broker::publish` and `Broker::subscribe` are the subject of Model/Race, those of
  walks through the topic tree of Model/Walk, both together of Model/Calls, those of the session and manager locks
  of Model/Locks. Model/Tasks has the connections of a whole server interleaved at these
  steps; there every connection has a new session of its own. `C89_histories` shows that what
  Model/Server does in a history of clean starts is one of the things Model/Tasks can do.
* `HashMap` iteration order is the list order of the model's maps; the theorems
  speak about results up to order where the code iterates.
* The tokio broadcast channel (capacity 16) is its documented contract: positions in
  the list of all messages sent, a receiver more than 16 behind skips to the oldest
  kept one and is told how many it lost.
* `select!` chooses arbitrarily between ready branches: the order of events is an input.
* Numbers of sessions, connections and log entries are `Nat`; memory does not run out.

## Findings

Where the code does not do what one would expect. "(Cnn)" names the claim with the
theorem.

Wire format
1. Property 0x19 (Request Response Information) is decoded as 0x17 (C07).
2. PINGREQ/PINGRESP leave their length byte in the buffer, so nothing that follows a
   ping is ever delivered (C15, C18, C19).
3. AUTH, and DISCONNECT with properties, are written without their property length
   and do not read back (C15).
4. Announced lengths are ignored by CONNECT and misread for acknowledgements of
   length 3, so a packet can eat bytes of the next one (C19).
5. Truncated fields make the connection's task panic (`get_u8`, `advance`), and in debug
   builds arithmetic does (C20).
6. Text over 65535 bytes is written with a length modulo 65536 (C04).
7. Reserved header flags, packet identifier 0, empty SUBSCRIBE and will bits without a will are
   accepted (C67). Variable byte integers may be longer than needed (C03).

Routing
8. The topic of a message sent to a subscriber is the subscription's filter, not the
   topic published to (C40); retain is never set, QoS is not limited to the granted one and
   the packet identifier is the publisher's.
9. Will topics are not validated; a will for "+" or "#" is delivered 2^n times (C25).
10. A retransmitted QoS 2 PUBLISH is routed again (C36).

Sessions
11. Clients with an empty identifier share one session (C45).
12. Resuming in memory overwrites the stored subscriptions with an empty list (C39).
13. A clean start keeps the stored messages in flight (C43).
14. The will is lost or replaced when two connections share a session, when a stale will is
    stored, and when the task panics; DISCONNECT with reason 0x04 drops it (C42).
15. A second CONNECT for a session in use waits for the lock the idle first connection
    holds, and holds the lock that every other CONNECT needs: two connections of one
    client stop the server from accepting anyone (C66).
16. AUTH continuation may name another method, a refused start leaves the exchange
    open (C48).
17. Keep-alive 0, which in MQTT turns the mechanism off, makes the server panic on the first packet after the CONNECT
    (overflow of the deadline, C50): that packet is acted on, then the connection task dies (`C75_keep_alive_zero_false`),
    and if it was a message the will of the client is lost (`C103_keep_alive_zero_false`). Keep-alive 1 gives 1 s (C50).

Storage, files
18. SQLite cuts filters at commas and drops packet identifiers of retained messages (C33).
    The server itself always uses the in-memory store.
19. `passwd` on a file it cannot parse writes a file with only the new user; a name with a
    line feed makes the file unreadable (C55).

Client
20. A packet that is split between two reads is lost if the first read ends in the topic or the payload
    of a PUBLISH, in the reason codes of a SUBACK or UNSUBACK, before or after the flags of a CONNACK,
    before the reason code of another packet or in a PINGRESP, and only then; messages larger than the
    4096 byte buffer are never received (C58). A SUBACK cut in its reason codes is reported as one
    without any.
21. Packet identifiers wrap to 0 (C57).
22. `--cafile` or `--insecure` without `--tls` connects in plain text, without a warning (C71).

Packets, against the grammar
25. The length announced by CONNECT, CONNACK and others is not looked at. PUBLISH finds the length of
    its payload by computing what the properties would take if written again, so a repeated property or
    a number not in its shortest form makes it take bytes of the next packet into the payload (C72).
26. A PUBACK (PUBREC, ...) with a reason and without property length is never complete; an AUTH of length
    0 panics; PUBLISH and SUBSCRIBE are read with properties also for version 3.1.1 (C73).
27. The built-in client's first keep-alive ping silences it: `publish` keeps returning success, the broker
    never sees the messages (C75), and the keep-alive timer of the server closes the connection one and a half times the
    keep-alive after it, however often the client pings (C51).
28. The server reads every packet as MQTT 5, whatever version the CONNECT named, and always writes the property
    length of a PUBLISH.  A 3.1 or 3.1.1 client is admitted, but what it publishes is misread, its SUBSCRIBEs close
    the connection and the messages it would be sent have an additional zero byte before the payload (C76).  The
    version-aware branch for CONNACK, SUBACK and UNSUBACK is all the code has.
29. Subscription options (QoS, no local, retain as published, retain handling) are read and ignored (C77).
30. A connection on which no CONNECT has arrived does not notice a shutdown and is let in after it (C79).
31. `mercurio pub` ends with status 0 also if the broker refuses the message; an unknown `-V` silently means MQTT 5 (C80).
32. After a DISCONNECT from the server the client reports `Disconnected` but goes on; a panic of its reader is not reported at all (C81).
33. Wildcard filters match topics beginning with `$`: `#` and `+/…` receive messages to `$SYS/…` and the like, live and retained, against [MQTT-4.7.2-1] (C83).
34. All packet properties, and the reason codes of acknowledgements and DISCONNECT, are read and ignored; no property is passed on with a message (C84).
35. Shared subscriptions are granted (and not declared unavailable in the CONNACK) but receive nothing (C85).
36. A second connection with the same client identifier does not close the first: with a clean start both receive, without one they take messages from each other (C86; see 15 for what the locks add).
37. A will with QoS 1 or 2 is sent without a packet identifier, so a subscriber misreads it or waits for bytes that do not come; and as publishers' identifiers are passed on, two unacknowledged messages of one client can have the same one, and the record of the first is lost (C87).
38. Storing a retained message and routing it are two steps: two clients that publish to one topic at the same time can leave the subscribers with one message and the retained store with the other (C88).
39. An application that has not taken 257 events stalls its client: no call returns, no message is acknowledged and no ping is sent until it takes one (C91).
40. A call given up (for instance by a timeout) after it entered the command channel is still carried out (C91).
41. Dropping an `MqttClient` leaves its connection open: it goes on acknowledging messages nobody gets, and sending pings (C91).
42. Before CONNECT a peer can make the server keep 2^28 + 3 bytes, whatever the authentication settings (C92).
43. Sessions are never released: one is kept for every client identifier ever let in. A client without an identifier leaves a record in the storage each time it connects, also if it asks for a clean start and disconnects (C93).
44. The channels of a filter (one for each of its levels, with room for 16 messages each) are never released, also when nobody subscribes to it any more (C93).
45. `encoded_size` of a control packet, and of each packet type, is the size of the Rust value in memory (the default of the trait), which has nothing to do with the number of bytes written; for PUBREC and PUBREL it aborts. Nothing in the repository calls it (C94).
46. The decoder of a CONNECT payload on its own reads the client identifier only; will, user name and password are left unread and reported as absent (C95).
47. The connection timeout is granted to each step of connecting anew: TCP, TLS handshake and CONNACK may take three times the timeout together (C97).
48. Writing the CONNECT has no timeout: a server that accepts the connection and takes no bytes keeps `connect` waiting forever (C97).
49. **The server never tells an MQTT 5 client why it ends its connection** (C102): no DISCONNECT is ever sent (`C102_no_disconnect_false`), and the step that ends the connection of a client that is in sends nothing (`C102_silent_end_false`). A client cannot tell a keep-alive timeout from a protocol error, a shutdown or a lost network; the built-in client reports all of them as `ServerInitiated`.
50. After its first keep-alive ping a client cannot leave in order either: `publish` followed by `disconnect` returns normally, but the server acts on neither; the messages are lost and the will is published (C99, C103).
51. A client that resumes its session without a restart of the server in between is not sent again the QoS 1 and 2 messages it had not acknowledged, although the storage records them (`C105_not_resent_false`; session_manager.rs:104-130 looks at them only if the session is not in memory): at-least-once delivery does not survive a reconnection.
52. A message with a payload of 4096 bytes or more blocks the connection of a built-in client for good: no way of reading ever completes it, so neither it nor anything after it reaches the application (`C106_large_message_false`, the reach of C58 in the whole system). Publishing one such message on a topic cuts off every built-in client that subscribes to it.
53. A connection that never completes its CONNECT (or its TLS handshake) is never closed by the server: there is no time limit before the keep-alive timer is set up (`C110_no_connect_false`). There is no limit on the number of connections either, so such connections add up until the process can open no more sockets; `accept` then fails, and the listener gives up after its last retry (C52).
54. Keep-alive does not end the connection of a client that does not read: while `write_packet` waits for the peer the `select!` with the timer is not polled, so neither the timer nor the client's own packets are looked at, and the will is not published (`C110_not_reading_false`).
55. The pings of the built-in client, which are meant to keep its connection open, end it: with any keep-alive k > 0 the client pings in time, the server takes the first ping, leaves its length byte in the buffer and is deaf from then on, and closes the connection floor(1.5 k) seconds later (`C111_stays_connected_false`, in the system with clocks, however the timers and the traffic fall; see C51, C75 for the same without clocks). With keep-alive 0 the connection is lost with the second packet (finding 17). So no connection of the built-in client outlasts about 2 k seconds.
56. A QoS 1 or QoS 2 publication is acknowledged to the publisher although it is dropped before a subscriber gets it: of any burst of accepted publications only the newest sixteen can reach a subscriber that is not served in between, whatever happens later (`C113_acknowledged_lost_false`; C112 says exactly what is lost).
57. A client that sends SUBSCRIBE for a filter it already has loses every message that is waiting for it (`C114_waiting_lost_false`): `add_subscription` replaces the stream, against MQTT-3.8.4-4.
58. A QoS 2 message the client has acknowledged by PUBREC (and for which the server has sent PUBREL) is sent again as PUBLISH after a restart (`C115_pubrec_false`): the in-flight record is removed only by PUBACK and PUBCOMP.  The client, which may have forgotten the identifier after PUBREL, takes it as a new message.
59. The duplicate flag of a publisher is passed on to the subscribers (`C116_passed_on_false`), against MQTT-3.3.1-3.
60. Nothing survives a restart of the daemon (`C117_sessions_false`, `C117_retained_false`): `run_with_tls` always creates a `MemoryStore`, and the types of `Listener` and `Handler` admit no other.  What C39, C41, C44 and C115 say about restarts concerns this code with a storage that persists; in the daemon as it is, a session is resumed from the storage only in the way C118 describes.
61. A client that comes back under the identifier the server has given it is told that its session is present, but the messages published while it was away are lost (`C118_away_lost_false`): its session in memory is kept under the empty identifier, where they wait for the next client that gives none (C45), and the session it is given is rebuilt from the storage with new streams.  An MQTT 3.1.1 client is not told the identifier at all.
62. A client that is away while more than sixteen messages for one of its filters are published, all of them acknowledged to their publishers, finds only the newest sixteen when it comes back to its kept session (`C105_away_lost_false`): the session's receiver is one `tokio::sync::broadcast` receiver of capacity 16, whether anybody reads from it or not.
63. The log can be forged (`C121_forged_false`): user names and client identifiers are written into it with `{}`, line feeds included, so any peer can add any line, without a password.
64. If authentication is enabled without a password file, every client is refused and nothing is logged (`C121_silent_false`; server.rs:230-233).
65. At the debug level the server writes every message it sends to its log, with the payload (`C124_debug_false`; server.rs:397).
66. `mercurio sub` prints payloads as they are (C127): a payload with a line feed prints like several messages, also under other topics, and control characters reach the terminal (mercurio/src/main.rs:206-214).
67. The messages of one publisher can overtake each other on their way to a subscriber with more than one filter (C128): each filter has its own queue and the queues are served in random order (mercurio-server/src/session.rs:112, 8). With overlapping filters an older message can arrive after a newer one of the same topic, which MQTT excludes for ordered topics.
68. A message delivered for a filter with wildcards is not a legal MQTT packet (C130, see also C40): the PUBLISH carries the filter, e.g. `#`, in the place of the topic name, and the standard demands that a receiver closes the connection on wildcards in a topic name (MQTT-3.3.2-2). Strict client libraries cannot use wildcard subscriptions with this server at all. AUTH packets from the server are not legal either: the length of the properties is missing.
69. The client library checks nothing the application asks for (C131): it sends a PUBLISH to `a/#` and a SUBSCRIBE without filters, both of which the standard forbids, and the server then ends the connection or ignores them. With `protocol_version` set to 3.1 or 3.1.1 only its CONNECT and its acknowledgements and pings are of that version: PUBLISH, SUBSCRIBE and UNSUBSCRIBE contain a length of properties and DISCONNECT a reason, so that a conforming 3.1.1 server gets a zero byte in front of every payload and must refuse the rest.
70. `start_session` does things in an order that a crash can tear apart (C132). `Session::begin` writes the CONNACK before `save_session` and `store_will`: a client may hold a CONNACK for a session (and a will) of which nothing is stored (`C132_connack_false`). A clean start deletes the session before the will: in between, a crash leaves a will without session, which the next session of that client inherits after a restart although it was created without will; it is published when the connection is lost (`C132_old_will_false`). All other handlers store before they answer. (This concerns the code with a storage that persists, see 60.)

Daemon
23. `max_connections` and `allow_anonymous` are read and ignored (C70).
24. Authentication without a password file refuses everyone (C69). If the TLS files are of no
    use the daemon stops, but with exit status 0.

## Testing the theorems

`seeded/LOG.jsonl` has one line per wrong program tried: a definition of the model
was changed in a scratch copy, everything downstream was rebuilt, and the theorems
that then failed were recorded. Where the claim was broken but no theorem failed, a
theorem was strengthened or added, and the line names it.

## Trusted base

* Lean 4.33.0's kernel. No axioms are added; the theorems depend on Lean's own
  axioms as listed below (generated by `tools/axioms.py`).
* That the definitions in `Model/` say what the Rust code says (checked by reading
  only; the line citations are there for the reviewer).
* The documented contracts of the libraries that are replaced by parameters: tokio
  (channels, `select!`, timers, mutexes), `bytes`, `std` collections and strings, rusqlite,
  argon2, uuid, futures, tokio-stream, clap, tracing.

<!-- axioms:begin -->
| Axioms | Theorems |
|---|---|
| none | `C06_standard_numbers`, `C94_pubrec_pubrel_false`, `C96_will` |
| propext | `C06_reason_roundtrip`, `C06_reason_byte_stable`, `C21_version_table`, `C21_level_byte`, `C22_publish_topic_error`, `C46_first_packet`, `C46_not_open`, `C49_single_step`, `C52_stopped`, `C56_not_connected`, `C61_no_start`, `C70_settings_partial`, `C70_only_given_settings`, `C80_unknown_version_false`, `C82_orders_differ`, `C86_lost_to_old_false`, `C87_collision_false`, `C88_agree_false`, `C88_twice`, `C98_cause`, `C102_refused_told_partial`, `C121_silent_false`, `C124_debug_false` |
| Quot.sound, propext | `C01_vbi_roundtrip`, `C02_vbi_prefix_free`, `C02_vbi_size_aborts`, `C04_binary_roundtrip`, `C04_binary_exact`, `C04_text_exact`, `C04_truncated_refused`, `C04_oversize_truncates`, `C04_oversize_lost`, `C06_reason_accepted_iff`, `C07_request_response_information_false`, `C07_unknown_identifier`, `C08_property_size`, `C08_announced_sizes`, `C08_records`, `C08_block_announced`, `C09_encode_no_error`, `C11_connack_v3_roundtrip`, `C14_suback_v3_roundtrip`, `C14_unsuback_v3_roundtrip`, `C15_disconnect_roundtrip_partial`, `C15_ping_false`, `C15_disconnect_expiry_false`, `C16_check_any_bytes`, `C18_ping_delivered_partial`, `C19_connect_reads_on_false`, `C19_puback_length3_false`, `C19_ping_false`, `C20_debug_stricter`, `C20_client_debug_stricter`, `C20_abort_false`, `C20_abort_debug_false`, `C22_publish_topic_iff`, `C23_topic_is_filter`, `C25_copies_double_false`, `C31_account`, `C31_in_order`, `C31_complete`, `C32_session`, `C32_will`, `C32_inflight`, `C32_all_inflight`, `C32_list_sessions`, `C33_comma_false`, `C33_comma_general_false`, `C35_invalid_topic`, `C38_unsubscribe`, `C38_codes`, `C42_panic_false`, `C48_exchange`, `C48_success`, `C48_refused`, `C48_other_method_false`, `C48_failed_start_false`, `C50_kept_open`, `C50_closed_when_idle`, `C50_closed_when_silent`, `C50_closed_only_when_idle`, `C50_zero_false`, `C50_zero_silent_partial`, `C51_pings_keep_alive_partial`, `C51_one_second`, `C51_ping_times`, `C52_survives`, `C52_next`, `C57_distinct`, `C57_numbering`, `C57_nonzero_partial`, `C57_zero_false`, `C58_ping_cut_false`, `C58_suback_cut_false`, `C58_connack_cut_false`, `C58_rounds`, `C59_publish`, `C59_seen_iff_acknowledged`, `C59_all_messages`, `C59_qos2_unanswered`, `C67_illegal_accepted_false`, `C68_encrypts`, `C68_no_files`, `C71_tls_partial`, `C72_swallowed_false`, `C73_legal_refused_false`, `C76_subscribe_false`, `C77_options_ignored_false`, `C79_no_new_connections`, `C80_bad_qos`, `C80_sub`, `C80_success_written`, `C80_failed_publish`, `C80_address`, `C81_call`, `C81_success_written`, `C81_disconnect`, `C81_after_the_end`, `C81_end_told`, `C81_server_disconnect_false`, `C82_finishes`, `C83_first_level_partial`, `C89_progress`, `C90_in_order`, `C90_given_up`, `C90_answered`, `C91_bounded_partial`, `C91_hangs_false`, `C91_given_up_false`, `C91_dropped_false`, `C91_withdrawn_partial`, `C94_control_packet_false`, `C94_each_kind_false`, `C94_connect_payload_partial`, `C96_last_set`, `C97_connected`, `C97_handed`, `C97_unreachable`, `C97_time_partial`, `C97_write_fails`, `C97_tls_fails`, `C98_texts`, `C102_close_told`, `C110_same_server`, `C111_same_system`, `C117_works_partial`, `C121_forged_false`, `C123_opaque`, `C124_payloads`, `C125_names`, `C127_shows_partial`, `C127_forged_false`, `C127_several_false`, `C130_auth_false`, `C131_last`, `C131_old_disconnect_false`, `C132_connect_others`, `C137_over`, `C137_client` |
| Classical.choice, Quot.sound, propext | `C02_vbi_size_minimal`, `C02_vbi_no_shorter`, `C03_vbi_incomplete_iff`, `C03_vbi_rejected_iff`, `C03_vbi_abort_iff`, `C03_vbi_value_iff`, `C03_vbi_value_lt`, `C03_vbi_outcomes`, `C04_text_roundtrip`, `C05_accepted_is_utf8`, `C05_non_utf8_rejected`, `C07_property_roundtrip_partial`, `C09_header_exact`, `C10_connect_roundtrip`, `C11_connack_roundtrip`, `C12_publish_roundtrip`, `C13_ack_roundtrip`, `C14_subscribe_roundtrip`, `C14_unsubscribe_roundtrip`, `C14_suback_roundtrip`, `C14_unsuback_roundtrip`, `C15_auth_false`, `C15_disconnect_properties_false`, `C16_check_exact`, `C17_chunked_stream`, `C18_after_ping_false`, `C19_consumes_prefix_partial`, `C19_progress`, `C20_aborts_iff`, `C20_client_aborts_iff`, `C20_no_abort_partial`, `C20_check_no_abort`, `C21_other_versions_refused`, `C21_accepted_version`, `C23_filter_iff`, `C24_routing`, `C24_one`, `C25_one_copy`, `C25_wildcard_topic_false`, `C26_agree`, `C26_broker`, `C27_independent`, `C27_add`, `C28_last_retained`, `C28_unchanged`, `C29_subscriber_gets_retained`, `C29_marked`, `C30_never_missed`, `C31_lag_iff`, `C32_retained`, `C33_same_answers_partial`, `C33_packet_id_false`, `C34_answers`, `C34_server_packets_refused`, `C35_publications`, `C35_valid_topic`, `C36_routed_on_arrival_partial`, `C36_retransmission_routed_again_false`, `C37_subscribe`, `C39_mailbox`, `C39_restart`, `C39_saved`, `C39_resume_forgets_false`, `C40_content_partial`, `C40_topic_partial`, `C40_wildcard_false`, `C41_stored`, `C41_resent`, `C41_only_from_storage`, `C42_will_partial`, `C42_no_will_partial`, `C42_same_id_false`, `C42_stored_will_false`, `C42_disconnect_with_will_false`, `C43_clean_start`, `C43_inflight_kept_false`, `C44_came_before`, `C44_session_present`, `C45_clientOf`, `C45_isolated_partial`, `C45_empty_ids_false`, `C46_open_connections`, `C47_open_connections`, `C47_refused`, `C47_no_validator`, `C47_accepted`, `C48_manager`, `C48_no_replay`, `C49_plain_accepts`, `C49_refusals`, `C49_auth_packet`, `C51_pings_ignored_false`, `C51_disconnected_false`, `C52_eight_in_a_row`, `C53_simple`, `C53_hashed`, `C53_connect`, `C54_read_back`, `C54_loaded`, `C54_rewrite`, `C54_colon_needed`, `C54_meaning`, `C54_refused`, `C55_add`, `C55_add_first`, `C55_delete`, `C55_refused`, `C55_malformed_false`, `C55_line_feed_false`, `C56_connect`, `C56_session`, `C58_whole_packets_partial`, `C58_payload_cut_false`, `C58_large_message_false`, `C58_reads_all_iff`, `C58_bad_cut_loses`, `C60_publish`, `C61_login`, `C61_deleted`, `C62_exactly_matching`, `C63_bytes_to_packets`, `C64_hostile_peers`, `C64_hostile_peer`, `C65_new_client`, `C66_answered_partial`, `C66_own_sessions_partial`, `C66_unsubscribed_partial`, `C66_same_session_false`, `C66_blocked_false`, `C67_accepted_legal_partial`, `C68_serves_iff`, `C69_users_only`, `C69_users_admitted`, `C69_no_file`, `C69_no_users`, `C69_serves_iff`, `C70_allow_anonymous_false`, `C70_max_connections_false`, `C70_serves_iff`, `C71_cafile_alone_false`, `C72_read_as_written_partial`, `C72_length_false`, `C73_accepted_partial`, `C74_application_to_application`, `C75_stays_connected_partial`, `C75_keep_alive_zero_false`, `C75_deaf_after_ping_false`, `C76_read_partial`, `C76_publish_false`, `C76_publish_zero_false`, `C76_answers_partial`, `C76_message_false`, `C76_refused_filter_false`, `C77_own_message_false`, `C77_retained_false`, `C77_limits_partial`, `C78_forwarding`, `C78_ends`, `C78_packet`, `C78_auth`, `C78_first`, `C79_notice`, `C79_all_end_partial`, `C79_silent_connection_false`, `C80_sub_connect`, `C80_publish`, `C80_exit_status_false`, `C80_exit_status`, `C82_once_in_order`, `C82_alone`, `C83_live_false`, `C83_retained_false`, `C84_ignored_false`, `C84_sent_partial`, `C85_shared_false`, `C86_both_open_false`, `C86_one_queue_false`, `C86_clean_start_false`, `C86_new_partial`, `C87_numbered_partial`, `C87_will_unreadable_false`, `C87_replaced_false`, `C88_live`, `C88_retained`, `C88_never_missed`, `C88_agree_partial`, `C89_alone`, `C89_histories`, `C89_answers`, `C89_bounded`, `C89_published`, `C89_delivery`, `C89_nothing_lost`, `C90_client_kept`, `C92_kept_bytes`, `C92_before_connect`, `C93_sessions_false`, `C93_stored_false`, `C93_anonymous_false`, `C93_channels_false`, `C93_unsubscribed_false`, `C93_bounded_partial`, `C95_client_id_partial`, `C95_rest_lost_false`, `C96_connect`, `C97_no_answer`, `C97_each_step_anew_false`, `C97_never_returns_false`, `C99_after_ping_false`, `C99_published_then_disconnected_partial`, `C100_nothing_made_up`, `C100_unsubscribed`, `C101_tools`, `C101_one_filter`, `C102_end_reason`, `C102_silent_end_false`, `C102_no_disconnect_false`, `C102_up_not_told`, `C103_after_ping_false`, `C103_will_partial`, `C103_keep_alive_zero_false`, `C104_late_subscriber`, `C105_away_lost_false`, `C105_begins`, `C105_goes_on`, `C105_exactly_matching_partial`, `C105_not_resent_false`, `C106_server_catches_up`, `C106_client_catches_up_partial`, `C106_messages_arrive_partial`, `C106_large_message_false`, `C107_server_catches_up_with_all`, `C107_everything_arrives_partial`, `C108_comes_to_rest`, `C108_everything_is_delivered_partial`, `C109_outsider_leaves_no_trace`, `C109_refused`, `C109_only_users`, `C109_told`, `C109_admitted`, `C109_users_get_in`, `C109_passwd`, `C109_passwd_deleted`, `C110_silent_is_closed_partial`, `C110_timer_strikes`, `C110_never_early`, `C110_no_connect_false`, `C110_failure_ends`, `C110_not_reading_false`, `C110_will_in_time_partial`, `C111_stays_connected_false`, `C111_first_period_partial`, `C111_pings`, `C112_newest_sixteen`, `C112_kept_sessions`, `C113_acknowledged_partial`, `C113_acknowledged_lost_false`, `C114_nothing_waiting_partial`, `C114_waiting_lost_false`, `C115_completed_partial`, `C115_pubrec_false`, `C116_marked_partial`, `C116_passed_on_false`, `C117_sessions_false`, `C117_retained_false`, `C118_found_partial`, `C118_mailbox`, `C118_away_lost_false`, `C119_same_answers`, `C119_as_if_alone`, `C120_passwords`, `C121_refused_are_told`, `C121_one_line_partial`, `C122_sessions`, `C122_wills`, `C123_not_invented`, `C126_levels`, `C128_one_subscription_partial`, `C128_accepted_in_order`, `C128_overtaken_false`, `C128_again_false`, `C129_subscribe`, `C129_unsubscribe`, `C130_legal_partial`, `C130_wildcard_false`, `C130_stream_partial`, `C131_connect`, `C131_legal_partial`, `C131_stream_partial`, `C131_wildcard_false`, `C131_empty_false`, `C131_old_publish_false`, `C131_old_subscribe_false`, `C132_ends`, `C132_prefix`, `C132_answered_is_stored`, `C132_all_or_nothing`, `C132_wills`, `C132_resumption`, `C132_subscriptions`, `C132_messages`, `C132_connack_false`, `C132_old_will_false`, `C133_refines`, `C133_decided`, `C133_bytes`, `C133_decent`, `C134_order`, `C135_alone`, `C135_bytes`, `C136_aborts_iff`, `C136_server`, `C136_connect`, `C136_client`, `C137_stream`, `C138_answers`, `C138_all_answered`, `C138_stream`, `C138_all_answered_stream`, `C138_bounded` |
<!-- axioms:end -->
