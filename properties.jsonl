{"id": "C01", "title": "Variable byte integers survive the wire", "statement": "Encoding any integer below 2^28 as an MQTT variable byte integer and decoding the result, with any bytes following it, gives back the same integer and leaves exactly the following bytes unread, in both debug and release builds.", "quantifier": "every integer 0..2^28-1, every suffix of trailing bytes, both overflow-check settings", "why_tests_cant": "2^28 values times unboundedly many suffixes; the existing tests sample eight boundary values.", "anchors": ["mercurio-core/src/codec.rs: encode_var_byte_integer, decode_var_byte_integer, VariableByteInteger"]}
{"id": "C02", "title": "Variable byte integer encodings are minimal and have the announced size", "statement": "For every integer below 2^28 the announced encoded size equals the number of bytes produced, which is the least number of bytes (1..4) that can carry the value; two different integers never have encodings one of which is a prefix of the other. The announced size aborts for integers of 2^28 and more.", "quantifier": "every pair of integers below 2^28", "why_tests_cant": "Quantifies over all pairs of values; framing correctness of every packet depends on it.", "anchors": ["mercurio-core/src/codec.rs: VariableByteInteger::encoded_size, encode_var_byte_integer"]}
{"id": "C03", "title": "Variable byte integer decoding has exactly four outcomes", "statement": "On an arbitrary byte string decoding (a) reports 'incomplete' exactly when every byte present has the continuation bit and there are at most four of them, (b) rejects as malformed (or, with overflow checks, may abort) exactly when the first four bytes all have the continuation bit and a fifth is present, and (c) otherwise returns the base-128 little-endian value of the bytes up to the first one without the continuation bit, which is below 2^28, consuming exactly those bytes.", "quantifier": "every finite byte string, both overflow-check settings", "why_tests_cant": "The input space is all byte strings, hostile ones included.", "anchors": ["mercurio-core/src/codec.rs: decode_var_byte_integer"]}
{"id": "C04", "title": "Length-prefixed text and binary fields survive the wire", "statement": "Every UTF-8 string and every binary value of at most 65535 bytes decodes back to itself with any bytes following, leaving exactly those bytes; a truncated field is never delivered as a shorter value. Longer values do not survive: their length prefix is taken modulo 65536.", "quantifier": "every string/byte value, every suffix", "why_tests_cant": "Unbounded contents and suffixes; the truncation only shows above 64 KiB.", "anchors": ["mercurio-core/src/codec.rs: String, Bytes Encoder/Decoder"]}
{"id": "C05", "title": "Only valid UTF-8 ever becomes text", "statement": "Whatever bytes arrive, a text field that is accepted is a valid UTF-8 encoding of a sequence of Unicode scalar values, and a complete field holding anything else is rejected as malformed.", "quantifier": "every byte string", "why_tests_cant": "All malformed UTF-8 byte sequences, including overlong forms and surrogates, would have to be enumerated.", "anchors": ["mercurio-core/src/codec.rs: String::decode"]}
{"id": "C06", "title": "Reason codes survive the wire up to their shared code 0x00", "statement": "Each reason code decodes back to itself, except that the two other names of code 0x00 (normal disconnection, granted QoS 0) come back as success; every byte that is accepted re-encodes to the same byte, every byte that is not one of the 43 assigned codes is rejected as malformed, and each code is the number MQTT 5 gives the reason.", "quantifier": "all reason codes and all 256 byte values with any suffix", "why_tests_cant": "Needs both directions over the complete table plus arbitrary suffixes.", "anchors": ["mercurio-core/src/reason.rs: ReasonCode::get_code, ReasonCode::decode"]}
{"id": "C07", "title": "Every MQTT 5 property survives the wire", "statement": "Each of the 27 properties, with any admissible value, decodes back to the same property and value, leaving exactly the bytes that follow. (False for Request Response Information, which comes back as Request Problem Information.)", "quantifier": "all 27 properties, all values, all suffixes", "why_tests_cant": "Value domains are unbounded and the failing case is a single wrong arm of a 27-way match.", "anchors": ["mercurio-core/src/properties.rs: def_prop!, decode_with_id, Property::decode"]}
{"id": "C08", "title": "Announced sizes equal produced bytes", "statement": "For every property, property block and packet body, the size the encoder announces equals the number of bytes it actually appends.", "quantifier": "every value of every property block", "why_tests_cant": "Sizes are computed by separate code from the bytes; a mismatch for one optional field corrupts framing only for packets using that field.", "anchors": ["mercurio-core/src/properties.rs: def_prop!", "mercurio-packets/src/*.rs: encoded_size"]}
{"id": "C09", "title": "The fixed header announces exactly the bytes that follow", "statement": "For every packet whose body is below 2^28 bytes, of every type and protocol version, the encoded packet is a type byte, a minimal variable byte integer n, and then exactly n bytes.", "quantifier": "every packet of every type and every field value, all protocol versions", "why_tests_cant": "Ranges over all packets; a wrong length desynchronises the whole connection.", "anchors": ["mercurio-packets/src/*.rs: Encoder impls"]}
{"id": "C10", "title": "CONNECT survives the wire", "statement": "A CONNECT packet with consistent flags and admissible fields decodes, with any bytes following, to the same version, flags, keep-alive, properties and payload (client id, will, credentials), for every protocol version, leaving exactly the bytes that follow. (Needs Request Response Information to be absent.)", "quantifier": "every well-formed CONNECT packet, all versions, all suffixes", "why_tests_cant": "Optional fields interact (will/user/password/version); combinations and contents are unbounded.", "anchors": ["mercurio-packets/src/connect.rs: ConnectPacket"]}
{"id": "C11", "title": "CONNACK survives the wire in its own version", "statement": "A CONNACK encoded for MQTT 5 decodes to the same flags, reason and properties; encoded for MQTT 3.x it decodes to the same session-present flag and to a reason with the same 3.x return code.", "quantifier": "every CONNACK packet, all versions, all suffixes", "why_tests_cant": "17 optional properties and 45 reasons in two wire formats.", "anchors": ["mercurio-packets/src/connack.rs: ConnAckPacket"]}
{"id": "C12", "title": "PUBLISH survives the wire", "statement": "A PUBLISH packet with admissible fields decodes, with any bytes following, to the same dup, QoS, retain, topic, packet id, properties and payload bytes, leaving exactly the bytes that follow.", "quantifier": "every well-formed PUBLISH, every payload, every suffix", "why_tests_cant": "Payload length is reconstructed by subtraction from sizes; must hold for all contents.", "anchors": ["mercurio-packets/src/publish.rs: PublishPacket"]}
{"id": "C13", "title": "Acknowledgement packets survive the wire", "statement": "PUBACK, PUBREC, PUBREL and PUBCOMP decode, with any bytes following, to the same packet id and reason code and property values, leaving exactly the bytes that follow.", "quantifier": "every packet id, reason and property block", "why_tests_cant": "All 65536 ids times reasons times unbounded property text.", "anchors": ["mercurio-packets/src/puback.rs", "mercurio-packets/src/pubrec.rs", "mercurio-packets/src/pubrel.rs", "mercurio-packets/src/pubcomp.rs"]}
{"id": "C14", "title": "Subscription packets survive the wire", "statement": "SUBSCRIBE, UNSUBSCRIBE, SUBACK and UNSUBACK with a non-empty list of entries decode, with any bytes following, to the same id, properties and the same entries in the same order, leaving exactly the bytes that follow.", "quantifier": "every list of entries of any length, every suffix", "why_tests_cant": "The number of entries is unbounded and the end of the list is found by arithmetic on buffer lengths.", "anchors": ["mercurio-packets/src/subscribe.rs", "mercurio-packets/src/unsubscribe.rs", "mercurio-packets/src/suback.rs", "mercurio-packets/src/unsuback.rs"]}
{"id": "C15", "title": "DISCONNECT, AUTH and ping packets survive the wire", "statement": "DISCONNECT, AUTH, PINGREQ and PINGRESP decode to what was encoded and consume exactly their own bytes. (Holds only for DISCONNECT without properties; AUTH never decodes to itself, property-carrying DISCONNECT does not, and the pings leave their length byte unread.)", "quantifier": "every such packet, every suffix", "why_tests_cant": "Universal over packets; the failing cases are not covered by any existing test.", "anchors": ["mercurio-packets/src/disconnect.rs", "mercurio-packets/src/auth.rs", "mercurio-packets/src/pingreq.rs", "mercurio-packets/src/pingresp.rs"]}
{"id": "C16", "title": "Completeness check never lies about a packet in transit", "statement": "For every packet the code can encode and every strict prefix of its bytes the completeness check answers 'incomplete', and it answers 'complete' for the whole packet followed by anything; the check looks only at the bytes and changes nothing.", "quantifier": "every encodable packet, every cut point, every suffix", "why_tests_cant": "Every cut point of every packet.", "anchors": ["mercurio-packets/src/lib.rs: ControlPacket::check"]}
{"id": "C17", "title": "The server reads the packets that were sent however the network splits them", "statement": "If a peer sends any sequence of well-formed packets (other than pings and AUTH/DISCONNECT with properties) and the byte stream arrives split into arbitrary chunks, the connection yields exactly those packets, in order, and nothing else, and at end of stream reports a clean close exactly when no partial packet is pending.", "quantifier": "every packet sequence, every way of splitting the bytes into chunks", "why_tests_cant": "All segmentations of all streams - a schedule quantifier.", "anchors": ["mercurio-server/src/connection.rs: Connection::read_packet, parse_packet", "mercurio-packets/src/lib.rs: check, parse"]}
{"id": "C18", "title": "A ping does not disturb the packets after it", "statement": "After a PINGREQ the connection continues to deliver the packets the peer sends next. (False: one byte of the ping stays in the read buffer and the rest of the stream is misread.)", "quantifier": "every stream containing a PINGREQ followed by another packet", "why_tests_cant": "A history property: the effect appears only on the packet after the ping.", "anchors": ["mercurio-packets/src/pingreq.rs: decode", "mercurio-server/src/connection.rs"]}
{"id": "C19", "title": "Parsing never reads past the packet's announced end", "statement": "Whatever the bytes, a packet that is accepted consumes exactly the bytes its header announced. (False for several packet types; holds for everything the encoders produce.)", "quantifier": "every byte string that passes the completeness check", "why_tests_cant": "Adversarial inputs; packet smuggling cases are crafted.", "anchors": ["mercurio-packets/src/lib.rs: parse_with_version", "mercurio-packets/src/publish.rs: decode", "mercurio-packets/src/connect.rs: decode"]}
{"id": "C20", "title": "Hostile bytes never crash the connection task", "statement": "For every byte string, reading a packet returns a packet, 'need more data' or an error, but never aborts. (False: bare get_u8 calls abort on short packets. Exactly: a release build aborts if and only if the buffered bytes are a complete packet by their announced length and are a CONNACK without flags or without reason code, a PUBACK/PUBREC/PUBREL/PUBCOMP of two bytes announcing another length, a SUBSCRIBE whose last filter ends the buffer, a DISCONNECT announcing but lacking its reason, or an AUTH without reason. A debug build does the same as a release build or aborts.)", "quantifier": "every byte string, both overflow-check settings", "why_tests_cant": "Adversarial inputs of any length.", "anchors": ["mercurio-packets/src/*.rs: Decoder impls", "mercurio-core/src/reason.rs: decode"]}
{"id": "C21", "title": "Protocol version negotiation is exact", "statement": "A CONNECT is accepted for exactly the (name, level) pairs (MQIsdp,3), (MQTT,4), (MQTT,5), giving versions 3.1, 3.1.1, 5; any other pair is refused as unsupported protocol version; names and levels of the three versions map back to themselves.", "quantifier": "every protocol name string and every level byte", "why_tests_cant": "All strings times all bytes.", "anchors": ["mercurio-core/src/protocol.rs", "mercurio-packets/src/connect.rs: decode"]}
{"id": "C22", "title": "Publish topics are validated exactly", "statement": "A topic name is accepted for publishing iff it is non-empty, at most 65535 bytes, and contains no NUL, '+' or '#'.", "quantifier": "every string", "why_tests_cant": "All strings.", "anchors": ["mercurio-core/src/topic.rs: validate_publish_topic"]}
{"id": "C23", "title": "Topic filters are validated exactly", "statement": "A topic filter is accepted iff it is non-empty, at most 65535 bytes, contains no NUL, every level containing '+' is exactly '+', and '#' appears only as the whole of the last level.", "quantifier": "every string", "why_tests_cant": "All strings.", "anchors": ["mercurio-core/src/topic.rs: validate_subscribe_filter"]}
{"id": "C24", "title": "A message reaches exactly the subscriptions whose filter matches", "statement": "After any history of subscriptions, a message published to a valid topic is handed to a subscription made with a valid filter iff the filter matches the topic under the MQTT matching rules ('+' one level, '#' the rest including the parent level).", "quantifier": "every set and order of subscriptions, every valid topic, every valid filter", "why_tests_cant": "The tree shape depends on all other subscriptions; all topics, filters and histories.", "anchors": ["mercurio-server/src/topic_tree.rs: TopicTree::subscribe, publish"]}
{"id": "C25", "title": "A subscription never receives two copies of one publication", "statement": "One publication to a valid topic name puts at most one copy into each subscription channel. (False for topics containing '+' or '#' levels, which the will path does not exclude.)", "quantifier": "every tree, every topic", "why_tests_cant": "All tree shapes.", "anchors": ["mercurio-server/src/topic_tree.rs: publish", "mercurio-server/src/server.rs: publish_will"]}
{"id": "C26", "title": "Live routing and retained lookup use the same matching", "statement": "For every valid filter and valid topic, the retained-message lookup returns a message stored under the topic iff a live publication to that topic would reach a subscription with that filter.", "quantifier": "every filter and topic", "why_tests_cant": "Two independent implementations of matching must agree on all inputs.", "anchors": ["mercurio-server/src/topic_tree.rs", "mercurio-storage/src/memory.rs: topic_matches_filter", "mercurio-storage/src/sqlite.rs: topic_matches_filter"]}
{"id": "C27", "title": "Routing does not depend on other subscriptions or their order", "statement": "Adding a subscription never changes which of the existing subscriptions receive a publication, and two histories with the same set of filters route every publication to the same filters.", "quantifier": "every pair of histories", "why_tests_cant": "Unbounded histories.", "anchors": ["mercurio-server/src/topic_tree.rs: subscribe"]}
{"id": "C28", "title": "The retained message of a topic is the last retained publication", "statement": "After any sequence of publications, the stored message for a topic is the payload and QoS of the last publication to it with the retain flag and a non-empty payload since the last one with the retain flag and an empty payload; publications without the flag or to other topics never change it.", "quantifier": "every publication history", "why_tests_cant": "Unbounded histories.", "anchors": ["mercurio-server/src/broker.rs: publish", "mercurio-storage/src/memory.rs: store_retained"]}
{"id": "C29", "title": "A new subscriber is given every matching retained message", "statement": "Subscribing with a valid filter returns exactly the currently stored retained messages whose topic matches the filter, one per topic, each marked as retained and with an unchanged topic, payload and QoS.", "quantifier": "every store content and filter", "why_tests_cant": "All stores and filters.", "anchors": ["mercurio-server/src/broker.rs: subscribe", "mercurio-storage/src/memory.rs: get_retained", "mercurio-server/src/session.rs: handle_subscribe"]}
{"id": "C30", "title": "A retained publication racing with a subscription is never missed", "statement": "When a retained publication and a matching subscription run concurrently, under every interleaving of their steps with each other and with other clients' operations, the subscriber gets the message at least once (live or as retained), unless a later retained publication to the topic replaced it, in which case it gets that later one live.", "quantifier": "every interleaving of any number of concurrent publish and subscribe operations", "why_tests_cant": "Schedules.", "anchors": ["mercurio-server/src/broker.rs: publish, subscribe"]}
{"id": "C31", "title": "Subscription channels deliver in order, without duplicates, and lose only on overflow", "statement": "A subscriber that reads its channel gets a subsequence of the messages sent after it subscribed, in order and without duplicates; if it never falls more than 16 messages behind it gets all of them; when it falls behind, exactly the oldest are lost.", "quantifier": "every interleaving of sends and receives", "why_tests_cant": "Schedules.", "anchors": ["mercurio-server/src/topic_tree.rs: TopicNode (broadcast channel)", "mercurio-server/src/session.rs: handle_subscribe stream"]}
{"id": "C32", "title": "Stored session data is a per-client map", "statement": "The storage returns for a client exactly the last session, will and in-flight messages stored for that client and not since removed; operations for one client never affect another, and removing is final until stored again.", "quantifier": "every sequence of storage operations", "why_tests_cant": "Unbounded histories.", "anchors": ["mercurio-storage/src/memory.rs", "mercurio-storage/src/lib.rs: traits"]}
{"id": "C33", "title": "SQLite and in-memory storage are interchangeable", "statement": "For every sequence of operations the SQLite storage returns the same results as the in-memory one, up to ordering of lists. (Only if no stored filter contains a comma or is a lone empty string, packet ids of retained messages are ignored, and integers fit.)", "quantifier": "every sequence of storage operations", "why_tests_cant": "Unbounded histories; two implementations.", "anchors": ["mercurio-storage/src/sqlite.rs", "mercurio-storage/src/memory.rs"]}
{"id": "C34", "title": "Each inbound packet gets exactly its protocol response", "statement": "For every session state: QoS 0 PUBLISH gets none, QoS 1 PUBACK, QoS 2 PUBREC, PUBREC gets PUBREL or an error, PUBREL PUBCOMP, SUBSCRIBE SUBACK, UNSUBSCRIBE UNSUBACK, PINGREQ PINGRESP, each with the request's packet id; packets only a server may send, and a second CONNECT, end the connection with a protocol error.", "quantifier": "every session state and packet", "why_tests_cant": "State times packet space unbounded.", "anchors": ["mercurio-server/src/session.rs: process_incoming, handle_*"]}
{"id": "C35", "title": "Only validated topics are routed", "statement": "No PUBLISH with an invalid topic name changes the retained store or reaches any subscriber; it ends the connection.", "quantifier": "every topic and session state", "why_tests_cant": "All strings, all states.", "anchors": ["mercurio-server/src/session.rs: handle_publish"]}
{"id": "C36", "title": "QoS 2 publications are delivered exactly once", "statement": "A QoS 2 PUBLISH retransmitted with the same packet id before PUBREL is routed once. (False: every copy is routed.)", "quantifier": "every history with a retransmission", "why_tests_cant": "History property.", "anchors": ["mercurio-server/src/session.rs: handle_publish, handle_pubrel"]}
{"id": "C37", "title": "SUBACK answers each filter in order and the subscription set changes accordingly", "statement": "The SUBACK has one code per requested filter, in order, failure exactly for the invalid ones; afterwards the session is subscribed to its old filters plus the valid requested ones, and to nothing else.", "quantifier": "every session state and every SUBSCRIBE", "why_tests_cant": "Unbounded lists and states.", "anchors": ["mercurio-server/src/session.rs: handle_subscribe"]}
{"id": "C38", "title": "UNSUBACK answers each filter in order and removes exactly those", "statement": "The UNSUBACK has one code per filter, in order, success exactly if the session was subscribed to it at that point; afterwards exactly the named filters are gone.", "quantifier": "every session state and every UNSUBSCRIBE", "why_tests_cant": "Unbounded lists and states.", "anchors": ["mercurio-server/src/session.rs: handle_unsubscribe"]}
{"id": "C39", "title": "Persisted subscriptions equal live ones", "statement": "After every answered SUBSCRIBE or UNSUBSCRIBE the stored filter list of the client is exactly its live subscription set. (Does not survive a reconnect that resumes the in-memory session: the stored list is then overwritten with an empty one.) What is stored survives a restart: a client that connects again without clean start after a restart has exactly the subscriptions it had after its last SUBSCRIBE or UNSUBSCRIBE.", "quantifier": "every history of a connection, with anything happening around it", "why_tests_cant": "History property.", "anchors": ["mercurio-server/src/server.rs: handle_connection", "mercurio-server/src/session_manager.rs: save_subscriptions, start_session"]}
{"id": "C40", "title": "Subscribers are told the topic that was published to", "statement": "The PUBLISH a subscriber receives carries the topic name, payload and QoS of the original publication. (The topic is replaced by the subscriber's filter, so this fails for wildcard filters.)", "quantifier": "every message and subscription", "why_tests_cant": "All messages and filters.", "anchors": ["mercurio-server/src/session.rs: process_outgoing"]}
{"id": "C41", "title": "In-flight messages are kept until acknowledged and resent after a restart", "statement": "The stored in-flight set of a client is always the QoS 1/2 messages sent to it and not yet acknowledged by PUBACK/PUBCOMP (keyed by packet id); on session resumption from storage exactly these are sent again, marked as duplicates.", "quantifier": "every history of sends and acknowledgements", "why_tests_cant": "Histories and crash points.", "anchors": ["mercurio-server/src/server.rs: Handler::run, handle_connection", "mercurio-server/src/session_manager.rs: store_inflight, remove_inflight"]}
{"id": "C42", "title": "The will is published exactly when the connection ends without DISCONNECT", "statement": "For every history of a connection established with a will: if the client sent DISCONNECT the will is never published, otherwise exactly once when the connection ends, with the topic, payload, QoS and retain flag given in CONNECT; and a connection without a will publishes none.", "quantifier": "every connection history and every way of ending", "why_tests_cant": "Histories and crash points.", "anchors": ["mercurio-server/src/server.rs: Handler::run, publish_will", "mercurio-server/src/session.rs: take_will, clear_will, WillMessage::from_connect_packet"]}
{"id": "C43", "title": "Clean start discards the previous session", "statement": "After a CONNECT with clean start the server reports no session present and the session has no subscriptions, stored or live, whatever the client's history. (Stored in-flight messages are not discarded.)", "quantifier": "every prior history of the client id", "why_tests_cant": "History property.", "anchors": ["mercurio-server/src/session_manager.rs: start_session"]}
{"id": "C44", "title": "Session-present is truthful", "statement": "The CONNACK reports session present iff the client did not ask for a clean start and a session for that client id exists in memory or in storage. Over whole histories, restarts included, that is: iff the client was connected under this identifier before.", "quantifier": "every manager and storage state, every history, every CONNECT", "why_tests_cant": "All states.", "anchors": ["mercurio-server/src/session_manager.rs: start_session", "mercurio-server/src/session.rs: begin"]}
{"id": "C45", "title": "Clients never share a session unless they use the same client id", "statement": "Two connections with different identities have separate sessions. (False for clients that send an empty client id: they all use one in-memory session.)", "quantifier": "every history of connections", "why_tests_cant": "History property.", "anchors": ["mercurio-server/src/session_manager.rs: start_session"]}
{"id": "C46", "title": "Nothing happens before CONNECT", "statement": "A connection whose first packet is anything but CONNECT ends with a protocol error, with no session, subscription, retained or storage effect and no reply.", "quantifier": "every first packet or byte string", "why_tests_cant": "All inputs.", "anchors": ["mercurio-server/src/server.rs: Listener::handle_connection"]}
{"id": "C47", "title": "With authentication required, no session without accepted credentials", "statement": "If authentication is required, a session is started only when the CONNECT carries a user name and password the configured validator accepts; every other CONNECT is answered with the corresponding error and ends without any effect on sessions or storage; with no validator configured everyone is refused.", "quantifier": "every CONNECT, every validator, every server state", "why_tests_cant": "All validators and packets.", "anchors": ["mercurio-server/src/server.rs: Handler::run", "mercurio-server/src/auth.rs: AuthManager"]}
{"id": "C48", "title": "Re-authentication cannot be skipped or replayed", "statement": "On an established session an AUTH exchange reports success only if the chosen authenticator returned success for the data the client sent, continuing is refused unless an exchange is in progress with the same method, and unknown methods are refused. An exchange of any number of rounds is led by the method named at its start: the client is sent each challenge that method gives, and in the end its verdict.", "quantifier": "every session state and AUTH packet, every authenticator", "why_tests_cant": "All authenticators, histories.", "anchors": ["mercurio-server/src/session.rs: handle_auth", "mercurio-server/src/auth.rs"]}
{"id": "C49", "title": "PLAIN accepts exactly the configured credentials", "statement": "PLAIN authentication succeeds iff the data is NUL user NUL password (empty authorization identity) with valid UTF-8 parts and the password is the one configured for that user; it never takes a second round.", "quantifier": "every byte string, every validator", "why_tests_cant": "All byte strings.", "anchors": ["mercurio-server/src/auth.rs: PlainAuth"]}
{"id": "C50", "title": "Keep-alive closes idle connections and only those", "statement": "With keep-alive k>0 the server closes the connection when, and only when, no packet arrived for floor(1.5k) seconds after the last one; with k=0 it never does.", "quantifier": "every arrival schedule and every k", "why_tests_cant": "Schedules.", "anchors": ["mercurio-server/src/server.rs: handle_connection"]}
{"id": "C51", "title": "The built-in client's pings keep its connection alive", "statement": "A client that sends a ping each max(1,k/2) seconds is never timed out by the server for any keep-alive k of at least 2. (For k=1 both intervals are one second.) (False in full: the server's reader takes only the first of the pings, so a client that has nothing else to send is closed 1.5k seconds after it.)", "quantifier": "every k in 1..65535 and every schedule of the two timers", "why_tests_cant": "All values and times.", "anchors": ["mercurio-client/src/client.rs: event_loop", "mercurio-server/src/server.rs: handle_connection"]}
{"id": "C52", "title": "Accept failures are retried with bounded exponential backoff", "statement": "The listener survives any run of fewer than eight consecutive accept failures, sleeping 1,2,4,...,64 seconds in between, a success resets the backoff, and the eighth consecutive failure stops it.", "quantifier": "every sequence of accept outcomes", "why_tests_cant": "Schedules.", "anchors": ["mercurio-server/src/server.rs: accept"]}
{"id": "C53", "title": "Credential validation is exact", "statement": "The simple validator and the file validator accept a (user, password) pair iff the user exists and the password equals the stored one (or verifies against the stored hash when it starts with '$').", "quantifier": "every credential table, user and password", "why_tests_cant": "All inputs.", "anchors": ["mercurio-server/src/auth.rs: SimpleCredentialValidator", "mercuriod/src/credentials.rs"]}
{"id": "C54", "title": "The password file is read back as written", "statement": "Writing any set of users and reading the file gives the same users with the same hashes, provided names contain no colon, newline, surrounding whitespace or leading '#' and are non-empty.", "quantifier": "every user table", "why_tests_cant": "All strings.", "anchors": ["mercuriod/src/main.rs: load_password_file, write_password_file"]}
{"id": "C55", "title": "Managing one user leaves the others alone", "statement": "Adding, updating or deleting a user changes only that user's entry in the password file. (False if the existing file contains a malformed line: all other users are lost.)", "quantifier": "every file content and user", "why_tests_cant": "All file contents.", "anchors": ["mercuriod/src/main.rs: add_or_update_user, delete_user"]}
{"id": "C56", "title": "The client's CONNECT says what the options said", "statement": "For every option set, the server decodes from the client's CONNECT bytes exactly the client id, clean-start, keep-alive, version, credentials and will given in the options.", "quantifier": "every option value", "why_tests_cant": "All option contents.", "anchors": ["mercurio-client/src/client.rs: build_connect_packet", "mercurio-packets/src/connect.rs"]}
{"id": "C57", "title": "The client numbers its packets safely", "statement": "Packet identifiers the client allocates are never zero and are distinct over any 65535 consecutive operations. (False: after 65535 operations identifier 0 is used.)", "quantifier": "every number of operations", "why_tests_cant": "Needs 65536 operations.", "anchors": ["mercurio-client/src/client.rs: next_packet_id uses"]}
{"id": "C58", "title": "The client reads the packets that were sent however the network splits them", "statement": "The client's reader yields the same packets for every segmentation of the byte stream. (False: a read that ends inside the topic or the payload of a PUBLISH, in the reason codes of a SUBACK or UNSUBACK, before or after the flags of a CONNACK, before the reason code of another packet or in a PINGRESP loses the packet: it is refused, taken for another one or aborts the client. Proved: the packets are read exactly if no read ends at such a place.)", "quantifier": "every packet sequence and segmentation", "why_tests_cant": "Every packet sequence and every way to cut it into reads; the network chooses.", "anchors": ["mercurio-client/src/connection.rs: read_packet"]}
{"id": "C59", "title": "The client acknowledges what it receives", "statement": "For every received PUBLISH the client delivers one message event with the same topic and payload and sends PUBACK with the same id exactly for QoS 1. (QoS 2 is never acknowledged.)", "quantifier": "every inbound packet", "why_tests_cant": "All packets.", "anchors": ["mercurio-client/src/client.rs: handle_incoming_packet"]}
{"id": "C60", "title": "A published message reaches the broker's router unchanged", "statement": "Bytes produced by the client's publish call, decoded by the server, yield a message with the same topic, payload, QoS and retain flag, which is exactly what is routed and retained.", "quantifier": "every publish call with admissible topic", "why_tests_cant": "All topics and payloads, end to end.", "anchors": ["mercurio-client/src/client.rs: handle_publish", "mercurio-packets/src/publish.rs", "mercurio-server/src/session.rs: handle_publish"]}
{"id": "C61", "title": "A user managed with the passwd command can log in, and only that user is affected", "statement": "After adding or updating a user with the passwd command, the daemon started with that file requires authentication, accepts for that user exactly the passwords that verify against the new hash, and decides as before about everyone else; after deleting the user it refuses every password for it.", "quantifier": "every readable password file, user name that fits a line, password, hash function and verification function", "why_tests_cant": "All files, names and passwords, across two programs.", "anchors": ["mercuriod/src/main.rs: main, load_password_file, add_or_update_user, delete_user", "mercuriod/src/credentials.rs: validate"]}
{"id": "C62", "title": "A subscriber is sent exactly the matching publications, in order", "statement": "After a client subscribes to a valid filter, and as long as its connection stays open, no other connection works on its session (as one with another client identifier, or one with the same identifier after a clean start, does not) and it neither subscribes nor unsubscribes that filter again, the PUBLISH packets it is sent for the filter are a subsequence of: the retained messages of the matching topics (one per topic, as at the time of subscribing), followed by all publications accepted since (from any client, or wills) whose topic the filter matches, in the order the broker accepted them. If never more than 16 of these are waiting, none is skipped, and once there is nothing more to send it has been sent all of them. Each carries the payload, QoS, duplicate flag and packet identifier of its publication.", "quantifier": "every reachable server state, subscriber, filter and later history of any number of clients whose published topics are valid", "why_tests_cant": "All interleavings of any number of publishers, subscribers and deliveries.", "anchors": ["mercurio-server/src/session.rs: handle_subscribe, process_outgoing", "mercurio-server/src/broker.rs: publish, subscribe", "mercurio-server/src/topic_tree.rs: publish, subscribe", "mercurio-server/src/server.rs: handle_connection"]}
{"id": "C63", "title": "Byte streams behave as the packets in them", "statement": "Whatever bytes arrive on any number of connections, in whatever chunks and interleaving, the server behaves as for some sequence of packets: the bytes a client has been sent are the encodings of the packets sent to it, in order; if the bytes received from it are the beginning of the encodings of some packets, then the first of these packets, in order and unaltered, are what the server has acted on, and when the connection is idle these are all packets that have arrived completely.", "quantifier": "every history of connections, chunks of bytes, deliveries and failures", "why_tests_cant": "All ways to cut and interleave byte streams of any length on any number of connections.", "anchors": ["mercurio-server/src/connection.rs: read_packet, parse_packet, write_packet", "mercurio-server/src/server.rs: run, handle_connection"]}
{"id": "C64", "title": "A hostile peer cannot disturb the other connections", "statement": "Whatever bytes a peer sends, including malformed or truncated packets and packets on which the handler of its connection panics, the other connections stay open with the same client, nothing is lost from or added to their byte streams, and the session state of their clients is unchanged, unless the peer uses their client identifier. (Leaving aside waiting for locks, see C66.)", "quantifier": "every history, every event on one connection, every other connection", "why_tests_cant": "All byte sequences in all server states.", "anchors": ["mercurio-server/src/server.rs: run, handle_connection", "mercurio-server/src/session_manager.rs: start_session"]}
{"id": "C65", "title": "A new client is always let in", "statement": "Whatever the other connections have done before or do in the meantime, a peer that connects and sends a CONNECT with clean start, a client identifier and, if required, accepted credentials, in any chunks, reads exactly the CONNACK that reports success without a session, and its connection is open. (Leaving aside waiting for locks, see C66.)", "quantifier": "every history of all other connections, every admissible CONNECT, every way to cut it into chunks, every interleaving", "why_tests_cant": "All histories and interleavings.", "anchors": ["mercurio-server/src/server.rs: run, handle_connection", "mercurio-server/src/connection.rs: read_packet", "mercurio-server/src/session_manager.rs: start_session"]}
{"id": "C66", "title": "A CONNECT is answered without waiting for other clients", "statement": "Every CONNECT the server accepts is answered after a bounded number of steps of the server itself, whatever other clients do or do not do: no client can make the server stop answering others by staying idle. (False: a CONNECT for a session that an idle subscribed connection still uses waits for that connection while holding the lock every CONNECT needs. It holds while no two connections use the same session.)", "quantifier": "every interleaving of any number of connections, with any client identifiers, over any number of steps", "why_tests_cant": "A test sees one schedule; absence of a deadlock ranges over all schedules and all sets of clients.", "anchors": ["mercurio-server/src/session_manager.rs: start_session", "mercurio-server/src/session.rs: process_outgoing, set_connect_packet, begin", "mercurio-server/src/server.rs: handle_connection"]}
{"id": "C67", "title": "Only legal packets are acted on", "statement": "Whatever bytes arrive, a packet the parser hands on has the type its first byte says and legal values in all fields: text is UTF-8, QoS (of a message, a will or a subscription) is 0, 1 or 2, a packet identifier is present exactly for QoS 1 and 2, CONNECT fields are present exactly as flagged, subscription options are legal; the flags in the first byte are legal and, for PUBLISH, mean what the packet says; lists that must not be empty are not, and packet identifiers are not zero.", "quantifier": "every byte sequence, protocol version and build mode", "why_tests_cant": "All byte sequences.", "anchors": ["mercurio-packets/src/lib.rs: parse_with_version", "mercurio-packets/src/connect.rs: decode", "mercurio-packets/src/publish.rs: decode", "mercurio-packets/src/subscribe.rs: decode", "mercurio-core/src/qos.rs: From<u8>"]}
{"id": "C68", "title": "A daemon told to encrypt never speaks in the clear", "statement": "If the settings in effect ask for TLS, the daemon, if it serves at all, hands no connection to the broker except over an encrypted stream, after a handshake with the certificates and the key of the configured files; with a configured CA file it demands a client certificate checked against exactly the certificates of that file. If the certificate or key file is not configured, cannot be read or has no certificate or key, it does not serve. Without authentication and with an address to listen on it serves exactly if certificates and key fit together and the CA file, if one is configured, has usable roots.", "quantifier": "every configuration file, command line, content of the files, outcome of the handshakes", "why_tests_cant": "All configurations and file contents; a test shows that one configuration encrypts, not that none falls back to plain text.", "anchors": ["mercuriod/src/main.rs: main", "mercuriod/src/config.rs: Config", "mercurio-server/src/tls.rs: TlsConfig::build_acceptor, load_certs, load_private_key", "mercurio-server/src/server.rs: run_with_tls, accept loop"]}
{"id": "C69", "title": "A daemon told to authenticate admits only users of its password file", "statement": "If the settings in effect ask for authentication, then after any history every open connection began with a CONNECT whose user the configured password file lists (last line for that user counts) and whose password is right: it is the listed one or, for a hash, verified by it. Conversely every CONNECT with a listed user and the right password is let in. If the file cannot be read or has a malformed line the daemon does not serve; without a password file nobody is let in. Without TLS and with an address to listen on it serves exactly if the password file, if one is configured, can be read and has no malformed line.", "quantifier": "every configuration, every text of the password file, every history of the server", "why_tests_cant": "All password files and all histories.", "anchors": ["mercuriod/src/main.rs: main, load_password_file", "mercuriod/src/credentials.rs: HashedCredentialValidator", "mercurio-server/src/server.rs: handle_connection"]}
{"id": "C70", "title": "Every setting of the daemon has its documented effect", "statement": "The daemon listens where --listen says, else at the configured host and port (default 127.0.0.1:1883); it encrypts only if told to and authenticates only if told to; with authentication and allow_anonymous = true a client without user name is let in; never more than max_connections connections are open. It serves exactly if it can listen there and the files for what it was told to do are usable. (False for allow_anonymous and max_connections: both settings are read and ignored.)", "quantifier": "every configuration, every history of the server", "why_tests_cant": "All configurations and all numbers of connections.", "anchors": ["mercuriod/src/main.rs: main", "mercuriod/src/config.rs: ServerConfig, AuthConfig", "mercuriod/README.md", "mercuriod/contrib/config.toml"]}
{"id": "C71", "title": "The command line tool encrypts when given TLS options", "statement": "Called with any of --tls, --cafile and --insecure, the tool sends its CONNECT, with user name and password, only over an encrypted stream; unless --insecure is given, only after a handshake that checked the server's certificate against the certificates of the --cafile, if there is one, or else the built-in roots. (False without --tls: --cafile alone is ignored and the connection is in plain text.)", "quantifier": "every combination of options, content of files and behaviour of the server", "why_tests_cant": "All combinations of options, files and servers.", "anchors": ["mercurio/src/common.rs: CommonArgs (cafile)", "mercurio-client/src/tls.rs: build_tls_connector", "mercurio-client/src/client.rs: connect"]}
{"id": "C72", "title": "Packets are read exactly as written", "statement": "When the parser hands on a packet, the buffer begins with a first byte, a length and a body that say exactly this packet according to the grammar of MQTT (fields in their order, properties in any order, of a property given twice the last), the length is that of the body, and the bytes after the packet are left for the next one. (False in full: several packets ignore the announced length, and a PUBLISH with a repeated property takes bytes of the following packet into its payload.)", "quantifier": "every buffer, protocol version, build mode and packet", "why_tests_cant": "All byte sequences, all combinations of fields and properties in every order.", "anchors": ["mercurio-packets/src/lib.rs: parse_with_version", "mercurio-packets/src/*.rs: Decoder implementations", "mercurio-core/src/properties.rs: def_prop!", "mercurio-core/src/codec.rs"]}
{"id": "C73", "title": "Every packet the grammar allows is accepted and understood, whatever follows", "statement": "If bytes say a packet according to the grammar, a buffer beginning with them parses to exactly that packet and leaves exactly the bytes after it, whatever they are. (False in full: acknowledgements of length 3, AUTH of length 0, the second byte of pings and the Request Response Information property are refused or misread.)", "quantifier": "every packet, every way the grammar allows to write it, every following buffer, protocol version and build mode", "why_tests_cant": "All packets, all orders of properties, all lengths of numbers, all following bytes.", "anchors": ["mercurio-packets/src/lib.rs: parse_with_version", "mercurio-packets/src/*.rs: Decoder implementations", "mercurio-core/src/properties.rs: def_prop!", "mercurio-core/src/codec.rs"]}
{"id": "C74", "title": "Messages get from application to application", "statement": "Between two moments at which applications publish, subscribe and receive through the built-in client on one server, there is a single order of everything that was published in between (each client's messages in the order of its publish calls, all of them if nothing of it is still in transit, and wills), such that every application whose subscription stood throughout got for it, in this order and without repetition, messages whose topic the filter matches and only those, with the payload and QoS published; and if no more than 16 of them were published, exactly all of them once nothing is in transit to it.", "quantifier": "every finite sequence of events of the whole system (any number of clients, any chunking of the byte streams, any order of server turns, deliveries and application calls), every subscriber, every filter", "why_tests_cant": "Unboundedly many clients and interleavings, all contents, all ways in which byte streams arrive.", "anchors": ["mercurio-client/src/client.rs: MqttClient, EventLoop", "mercurio-client/src/connection.rs: Connection", "mercurio-server/src/server.rs: Handler", "mercurio-server/src/connection.rs: Connection", "mercurio-server/src/broker.rs: Broker", "mercurio-server/src/session.rs"]}
{"id": "C75", "title": "A connected client stays connected and is listened to", "statement": "A client connected through the built-in client with a keep-alive other than 0, with nothing in transit to the server, stays connected whatever other clients and applications do, as long as its own application does not disconnect or publish to an invalid topic, no socket fails, the server does not give it up on purpose, and nobody takes up its session by connecting under the same client identifier; and what it publishes keeps reaching the broker. (False in full: after the client's own first keep-alive ping nothing it publishes reaches the broker any more; and a client with keep-alive 0 is cut off by its second packet, so that it never publishes or subscribes to anything.)", "quantifier": "every finite sequence of events of the whole system before and after the moment considered, every client", "why_tests_cant": "Unboundedly many clients and interleavings, all contents, all ways in which byte streams arrive.", "anchors": ["mercurio-client/src/client.rs: EventLoop, event_loop", "mercurio-server/src/server.rs: Handler, handle_connection", "mercurio-server/src/connection.rs: Connection", "mercurio-packets/src/pingreq.rs"]}
{"id": "C76", "title": "Clients of MQTT 3.1 and 3.1.1 are served", "statement": "A client that connects with MQTT 3.1 or 3.1.1 is understood and answered in that version: its packets, encoded by the 3.1.1 standard, are read as what they mean, and whatever the server sends to it is a legal 3.1.1 packet that says what the server means. (True of CONNECT, acknowledgements and DISCONNECT from the client and of CONNACK, acknowledgements, PINGRESP and SUBACKs of valid filters to it. False of everything that matters: every PUBLISH is misread, SUBSCRIBE and UNSUBSCRIBE are refused, every message delivered has an additional byte in front of its payload, and a refused filter is answered by a code that 3.1.1 does not have.)", "quantifier": "every legal 3.1.1 packet, every session of such a client, every packet answered, every message", "why_tests_cant": "All topics, payloads, filters and identifiers; that a packet is never understood (whatever follows it in the buffer) cannot be shown by samples.", "anchors": ["mercurio-packets/src/lib.rs: ControlPacket::parse, parse_with_version", "mercurio-packets/src/publish.rs: PublishPacket", "mercurio-packets/src/subscribe.rs, unsubscribe.rs", "mercurio-packets/src/suback.rs, unsuback.rs, connack.rs", "mercurio-server/src/connection.rs: parse_packet", "mercurio-server/src/session.rs: process_incoming"]}
{"id": "C77", "title": "The options of a subscription are honoured", "statement": "A SUBACK grants at most the QoS asked for; messages are sent with at most the granted QoS; with `no local` a client is not sent its own messages; retained messages are sent on subscribing exactly as the retain handling option says and are marked as retained; `retain as published` keeps the flag. (Granting at most what was asked for is true, and so is that live messages are not marked as retained. The rest is false: the options make no difference at all.)", "quantifier": "every reachable state, every client, filter, option and message", "why_tests_cant": "All combinations of options, filters, messages and earlier histories; that options never make a difference is a statement about all of them.", "anchors": ["mercurio-packets/src/subscribe.rs: SubscriptionOptions", "mercurio-server/src/session.rs: handle_subscribe, process_outgoing"]}
{"id": "C78", "title": "A connection ends only through its own client, socket or timer", "statement": "A running connection is ended only by bytes its own client sent, the end of its stream, an error of its socket, its keep-alive timer or a shutdown: never by what happens on other connections and never by a message that has to be forwarded to it, whatever bytes the other clients have sent (in particular the code marked unreachable in the forwarding of messages is not reached). Forwarding writes nothing or exactly one PUBLISH. A packet (other than AUTH) that is read on an established connection leaves it running exactly if clients may send it and the keep-alive is not 0, and is then answered in writing. An AUTH leaves it running exactly if the authenticator of the exchange has an answer and the keep-alive is not 0. The first packet leaves the connection running exactly if it is a CONNECT whose credentials are accepted or not required and whose CONNACK could be written.", "quantifier": "every history of byte chunks on any number of connections, every event, every connection and subscription", "why_tests_cant": "All byte strings of all peers and all interleavings; a crash on forwarding would need a rare value to pass the decoder.", "anchors": ["mercurio-server/src/server.rs: Handler::handle_connection", "mercurio-server/src/session.rs: process_outgoing", "mercurio-packets/src/publish.rs: PublishPacket::decode"]}
{"id": "C79", "title": "A shutdown ends the server in order", "statement": "Once the server has been told to shut down it accepts no connection; every connected client's connection ends, its will is published if it still has one, and nothing else changes for the other connections; no client gets in any more. (False for connections that were accepted but on which no CONNECT has arrived: they do not notice the shutdown and are let in afterwards. Clients are closed without a DISCONNECT.)", "quantifier": "every history of the process, every moment of the shutdown, every order in which connections notice it", "why_tests_cant": "All histories and all interleavings of the shutdown with traffic on any number of connections.", "anchors": ["mercurio-server/src/server.rs: run_with_tls, Handler::handle_connection", "mercurio-server/src/shutdown.rs: Shutdown"]}
{"id": "C80", "title": "The command line tool does what its arguments say", "statement": "`mercurio pub` and `mercurio sub` connect to exactly the host and port, with exactly the client id, credentials, keep-alive, version and will of their arguments; `pub` publishes exactly the message of its arguments (or of standard input) with its QoS and retain flag, then disconnects; its exit status tells whether the message was published. `sub` subscribes to exactly its topics and prints every message that arrives, in order. Arguments without a meaning are refused. (False: an unknown version means 5; the exit status is 0 also if the server refuses the message: it is 0 exactly if the message and a DISCONNECT were written.)", "quantifier": "every set of arguments, every message, every chunking of the bytes, every history of the connection", "why_tests_cant": "All argument values and all sequences of messages.", "anchors": ["mercurio/src/main.rs: run_publish, run_subscribe, parse_qos", "mercurio/src/common.rs: to_connect_options, parse_protocol_version"]}
{"id": "C81", "title": "What the calls of the client mean", "statement": "A call that returns successfully has written exactly one packet, carrying what was asked for; a call that fails has written nothing. `disconnect` ends the connection. After the end every call fails and nothing is written. When the connection ends the application is told, with the reason, after everything that arrived before. Being told so means that the connection has ended. (The last sentence is false for a DISCONNECT from the server; a panic of the reader is not reported.)", "quantifier": "every state of the client, every call, every sequence of calls, packets and failures", "why_tests_cant": "All sequences of calls, arrivals and failures.", "anchors": ["mercurio-client/src/client.rs: event_loop, publish_with_retain, subscribe, unsubscribe, disconnect, recv"]}
{"id": "C82", "title": "Concurrent publications reach every subscriber once, in each publisher's order", "statement": "When any number of tasks publish at the same time, every subscription is given each matching message that was published after it was made exactly once and nothing else, and the messages of one publishing task arrive in the order in which that task published them. Only a publication that is still going on may be missing. A publication always comes to its end, whatever the others do, in a number of steps that depends only on its topic. A publication that runs alone has the same effect. (The messages of different publishers may arrive in different orders at different subscribers.)", "quantifier": "every set of filters and topics, every number of publishing tasks, every interleaving of the steps of their walks through the subscriptions, every moment of a subscription", "why_tests_cant": "The number of interleavings of the walks is exponential and a test run sees one of them, chosen by the scheduler.", "anchors": ["mercurio-server/src/topic_tree.rs: TopicTree::publish, TopicTree::subscribe", "mercurio-server/src/broker.rs: Broker::publish"]}
{"id": "C83", "title": "Topics beginning with $ are kept from wildcard subscriptions", "statement": "A subscription whose filter begins with a wildcard (+ or #) receives no message published to a topic that begins with $, neither live nor retained. (False, always: every such subscription receives all of them. A filter that does not begin with a wildcard matches only topics with its own first level.)", "quantifier": "every history of subscriptions and publications, every filter beginning with a wildcard, every topic beginning with $", "why_tests_cant": "All filters, topics and histories.", "anchors": ["mercurio-server/src/topic_tree.rs: TopicTree::publish", "mercurio-storage/src/memory.rs: topic_matches_filter"]}
{"id": "C84", "title": "Packet properties and reason codes have their effect", "statement": "The MQTT 5 properties of the clients' packets have the effect the standard gives them (session expiry, receive maximum, maximum packet size, will delay, message expiry, topic alias, response topic and correlation data and user properties passed on, subscription identifiers), and so have the reason codes of the clients' acknowledgements and of DISCONNECT (with will). (False as a whole: in every history the server does exactly what it would do without any of them. In the other direction the server tells nothing but the client identifier it assigned.)", "quantifier": "every configuration, every history of any number of connections, every event in every state", "why_tests_cant": "All packets, all histories; that something makes no difference in any history cannot be sampled.", "anchors": ["mercurio-server/src/session.rs: Session::process_incoming, Session::begin", "mercurio-server/src/session_manager.rs: SessionManager::start_session", "mercurio-server/src/server.rs: Handler::run"]}
{"id": "C85", "title": "Shared subscriptions distribute messages among their group", "statement": "Of the clients that subscribe to `$share/group/filter` exactly one is given each message whose topic the filter matches. (False, always: the subscription is granted, but it is given nothing that is not published to a topic with the literal first level `$share`.)", "quantifier": "every history of subscriptions and publications, every group and filter, every topic", "why_tests_cant": "All filters, topics and histories.", "anchors": ["mercurio-server/src/topic_tree.rs: TopicTree::subscribe, TopicTree::publish", "mercurio-server/src/session.rs: Session::handle_subscribe"]}
{"id": "C86", "title": "A second connection of a client replaces the first", "statement": "When a client is let in under the identifier of a client that is connected, the older connection is closed, and from then on the new connection is the one that receives the client's messages. (False, always: the older connection stays open. With a clean start it keeps its subscriptions and its messages; without one both connections take from one queue, and a message sent on one is not sent on the other. What holds: the new connection is open and has the session's subscriptions.)", "quantifier": "every configuration, every reachable server, every pair of connections, every CONNECT that is let in", "why_tests_cant": "All histories before the second CONNECT, all interleavings of the two connections after it.", "anchors": ["mercurio-server/src/session_manager.rs: SessionManager::start_session", "mercurio-server/src/server.rs: Handler::run", "mercurio-server/src/session.rs: Session::process_outgoing"]}
{"id": "C87", "title": "Forwarded messages have packet identifiers that identify them", "statement": "A PUBLISH the server sends has a packet identifier exactly if its QoS is 1 or 2, and two messages of one client that are not yet acknowledged have different identifiers. (Proved for messages of clients that number theirs properly; false for wills, which are sent without identifier and cannot be read by the subscriber; false for distinctness, as the publishers' identifiers are passed on: the in-flight record of the first message is replaced by the second.)", "quantifier": "every configuration, every history of any number of connections, every filter and every delivery; every will with QoS 1 or 2 and every filter", "why_tests_cant": "All histories and payloads; collisions depend on which identifiers independent publishers choose.", "anchors": ["mercurio-server/src/session.rs: Session::process_outgoing", "mercurio-server/src/server.rs: publish_will, Handler::run", "mercurio-packets/src/publish.rs: PublishPacket::encode"]}
{"id": "C88", "title": "Concurrent publications and subscriptions lose nothing, and agree about the last message", "statement": "When any number of tasks publish and subscribe at the same time, down to the single steps of storing, locking and sending: a subscription is given live each matching message whose routing began after it, once, those of one task in its order; it is given as retained, for each matching topic, the last message stored when it reads; so a retained publication is never missed. When all calls have returned, the retained message of a topic is the last one its subscribers were given. (The last sentence is false: with two tasks publishing to one topic, storing and routing can be taken in opposite orders. It holds if one task publishes to the topic. A message can be given twice, live and retained.)", "quantifier": "every number of calls, every set of filters and topics, every interleaving of the steps of the calls", "why_tests_cant": "The interleavings are exponentially many and a test run sees one of them, chosen by the scheduler.", "anchors": ["mercurio-server/src/broker.rs: Broker::publish, Broker::subscribe", "mercurio-server/src/topic_tree.rs: TopicTree::publish, TopicTree::subscribe"]}
{"id": "C89", "title": "Connections served at the same time answer everything, block nobody and lose nothing", "statement": "Any number of connections are served at the same time, and the handling of each packet is interrupted at any of its steps (storing, waiting for and walking through the topic tree, reading retained messages) by the steps of the others. Then still: (a) an accepted packet gets exactly the answer it calls for, once, when its handling is complete, and SUBACK has one code per filter; (b) the handling of a packet takes a number of own steps bounded by the packet, whatever the others do; (c) no set of connections blocks itself; (d) the broker is given exactly the messages that arrived, in order, and in the end the will unless the client said goodbye; (e) a subscriber is sent, each once and in the order of each publisher, the retained messages of a moment between its SUBSCRIBE and SUBACK and then the matching messages from that moment on: none that was routed before the SUBSCRIBE, all that arrive after the SUBACK, with gaps only if more than 16 messages wait; (f) handling the packets one after the other, with the effects and answers the single-event properties describe, is one of the ways in which connections can run.", "quantifier": "every number of connections, every sequence of packets on each, every interleaving of the single steps of their handling", "why_tests_cant": "The interleavings are exponentially many in the length of the run, and a test sees the one the scheduler chooses.", "anchors": ["mercurio-server/src/server.rs: Handler::run", "mercurio-server/src/session.rs: Session::process_incoming, handle_publish, handle_subscribe, process_outgoing", "mercurio-server/src/broker.rs: Broker::publish, Broker::subscribe", "mercurio-server/src/topic_tree.rs: TopicTree::publish, TopicTree::subscribe"]}
{"id": "C90", "title": "Calls made at the same time on one client are carried out one at a time and each is answered once", "statement": "Any number of callers call publish, subscribe, unsubscribe and disconnect on one connected client at the same time, while packets arrive and the keep-alive timer ticks. The calls are carried out one at a time in the order in which they were made; for each call that succeeds exactly one packet is written, saying what that call asked for, and nothing for one that fails; each caller gets exactly one answer, that of its own call, as soon as the application has taken its events and the calls before it are done; calls made after the end of the connection fail. Also if callers give up waiting, no caller gets two answers or another's. A client cannot be dropped while a call on it is awaited.", "quantifier": "every number of callers, every sequence of calls, every interleaving with arriving packets, ticks, write failures, events taken and calls given up", "why_tests_cant": "The callers and the event loop are separate tasks; the orders in which they proceed are unbounded in number and chosen by the scheduler.", "anchors": ["mercurio-client/src/client.rs: MqttClient::publish, subscribe, unsubscribe, disconnect, event_loop, Command"]}
{"id": "C91", "title": "An application may be slow to take events, give up calls or drop its client without harm", "statement": "However slowly an application takes its events, only a bounded number is kept for it and calls, acknowledgements and pings go on; a call that the application gave up before it was carried out has no effect (proved: exactly if 32 or more calls were waiting before it); and when the client is dropped its connection is closed and nothing is acknowledged any more.", "quantifier": "every sequence of calls, given-up calls, arriving packets, ticks and events taken, with the client dropped at any point", "why_tests_cant": "Whether an application stalls the event loop depends on the number of untaken events and on the interleaving of tasks; a test tries some.", "anchors": ["mercurio-client/src/client.rs: MqttClient, MqttClient::recv, event_loop, handle_incoming_packet"]}
{"id": "C92", "title": "The bytes kept for a connection are bounded", "statement": "Whatever bytes a peer sends and however they are split, what the server keeps unread for its connection is the end of what was sent, and shorter than the longest packet MQTT allows (2^28 + 4 bytes) plus one read. The bound holds before and after CONNECT; it is reached also by peers that have not sent a CONNECT, whatever the authentication settings.", "quantifier": "every byte stream, every splitting into reads, any number of connections, every interleaving", "why_tests_cant": "A test sends some streams; that no stream makes the buffer grow further (for instance after a misread packet) concerns all of them.", "anchors": ["mercurio-server/src/connection.rs: Connection::read_packet, parse_packet", "mercurio-packets/src/lib.rs: ControlPacket::check"]}
{"id": "C93", "title": "The server releases what is no longer used", "statement": "What the server keeps is bounded by what its clients did, and what nobody uses any more is released: the session of a client that asked for none to be kept when its connection ends, its record in the storage, and the channels of filters nobody subscribes to.", "quantifier": "every history of connections, packets and restarts", "why_tests_cant": "That memory is not retained concerns all histories of unbounded length; a test sees the effect of one packet, not that something is kept for ever.", "anchors": ["mercurio-server/src/session_manager.rs: SessionManager::start_session", "mercurio-server/src/topic_tree.rs: TopicTree::subscribe", "mercurio-server/src/session.rs: handle_unsubscribe", "mercurio-storage/src/memory.rs: MemoryStore"]}
{"id": "C94", "title": "Packets announce their size", "statement": "Whatever can be encoded announces the number of bytes it will be written as: also a whole control packet, each packet type, and the payload of a CONNECT.", "quantifier": "every packet of every type, and every memory layout the compiler may choose", "why_tests_cant": "The announced number may be right for the packets of a test and wrong for others; whether it is right for all of them, on all platforms, no test settles.", "anchors": ["mercurio-core/src/codec.rs: Encoder::encoded_size", "mercurio-packets/src/lib.rs: impl Encoder for ControlPacket", "mercurio-packets/src/pubrec.rs: encoded_size", "mercurio-packets/src/pubrel.rs: encoded_size", "mercurio-packets/src/connect.rs: ConnectPayload::encoded_size"]}
{"id": "C95", "title": "The payload of a CONNECT survives encoding and decoding on its own", "statement": "The payload of a CONNECT, written with its own encoder and read with its own decoder, comes back as it was, with client identifier, will, user name and password.", "quantifier": "every payload, with any bytes after it", "why_tests_cant": "Each combination of the optional fields would have to be tried with all contents.", "anchors": ["mercurio-packets/src/connect.rs: impl Encoder for ConnectPayload", "mercurio-packets/src/connect.rs: impl Decoder for ConnectPayload"]}
{"id": "C96", "title": "The client's options are the last ones set", "statement": "Whatever calls an application makes on its connection options, in whatever order and however often, each option is the last value it was given, a call changes nothing but its own option, and an option never set has its documented default; the CONNECT the server reads says exactly that.", "quantifier": "every sequence of calls with any values", "why_tests_cant": "All orders and repetitions of eleven kinds of calls.", "anchors": ["mercurio-client/src/options.rs: ConnectOptions", "mercurio-client/src/options.rs: Will", "mercurio-client/src/client.rs: build_connect_packet"]}
{"id": "C97", "title": "Connecting tells the truth, in time", "statement": "Connecting returns a client exactly if the server at the given host and port was reached, the TLS handshake succeeded (if TLS is on) and the server accepted the CONNECT; nothing is sent before, and with TLS nothing in the clear; otherwise it returns an error. It returns within the connection timeout. (False for the time: the timeout is granted to each step anew, and writing the CONNECT has none.)", "quantifier": "every set of options, every behaviour and every timing of the network", "why_tests_cant": "All timings of a network, including ones that never answer.", "anchors": ["mercurio-client/src/client.rs: MqttClient::connect, perform_connect", "mercurio-client/src/tls.rs: build_tls_connector", "mercurio-client/src/connection.rs: write_packet"]}
{"id": "C98", "title": "The texts of errors tell the errors apart", "statement": "Two errors of the library, errors of the client, reason codes, topic errors or protocol versions that print the same text are the same; the text of an error contains that of its cause.", "quantifier": "every pair of errors, with any texts of the operating system or the storage in them", "why_tests_cant": "All pairs of errors with arbitrary inner texts.", "anchors": ["mercurio-core/src/error.rs: Display", "mercurio-core/src/reason.rs: Display", "mercurio-core/src/topic.rs: Display", "mercurio-core/src/protocol.rs: Display", "mercurio-client/src/error.rs: ClientError"]}
{"id": "C99", "title": "A client may publish and disconnect at once: what it published is not lost", "statement": "If a connected client with a keep-alive other than 0 and nothing in transit publishes to valid topics and then disconnects (or its socket fails after the bytes were handed over), and the server does not itself give up the connection, then once the server has closed the connection or acted on everything the client wrote, every message whose publish call returned normally has been published by the broker, exactly once and in the order of the calls, and subscribers of its topics receive it as they receive any other message. (False once the client has sent a keep-alive ping: from then on the server acts on nothing it sends.)", "quantifier": "every run of a server and any number of clients, every splitting of the byte streams, every sequence of calls of the application", "why_tests_cant": "Whether the end of the stream overtakes packets still in the read buffer depends on how the bytes are cut and when the tasks run; a test sees one schedule.", "anchors": ["mercurio-client/src/client.rs: publish, disconnect", "mercurio-server/src/connection.rs: read_packet", "mercurio-server/src/session.rs: process_incoming", "mercurio-server/src/server.rs: handle_connection"]}
{"id": "C100", "title": "Applications receive only what they asked for and what was published", "statement": "Every message an application receives through the built-in client on a clean session was asked for and published: an earlier subscribe call of this application named the filter it arrives under, some application published (or some client left as its will) a message with exactly this payload and QoS whose topic the filter matches, and it is not marked as retained. After an unsubscribe has taken effect no further message arrives for that filter until the application subscribes to it again.", "quantifier": "every run of a server and any number of clients, every splitting of the byte streams, every sequence of calls of the applications, clients with and without identifiers, as long as no other client works on the same session", "why_tests_cant": "That nothing extra ever arrives is a statement about all runs; a test sees only the messages of the runs it makes, and spurious deliveries depend on other clients' traffic and on schedules.", "anchors": ["mercurio-client/src/client.rs: subscribe, unsubscribe, recv", "mercurio-server/src/session.rs: process_subscribe, process_unsubscribe, process_outgoing", "mercurio-server/src/server.rs: handle_connection"]}
{"id": "C101", "title": "Lines typed into one command line tool come out of another", "statement": "Between two points at which a running `mercurio sub` has nothing in transit, the lines it prints are exactly those of messages that were published in the meantime under its filters: each run of `mercurio pub` that exited successfully (with a valid topic, a keep-alive other than 0, and the server not giving it up) contributes exactly its one message with the topic, payload, QoS and retain flag of its arguments; `sub` prints for each filter a subsequence of the matching messages, in the order in which the server took them, and all of them if they were at most 16; each line is the payload, after the filter if topics are asked for; nothing else is printed.", "quantifier": "every interleaving of any number of clients, tools, servers' and clients' turns and reads; all argument sets; all payloads and topics", "why_tests_cant": "A test runs one pub and one sub in one schedule. The claim joins both tools, both client tasks, the wire and the server over all schedules, and has to exclude lines nobody published.", "anchors": ["mercurio/src/main.rs: run_publish, run_subscribe", "mercurio/src/common.rs: to_connect_options", "mercurio-client/src/client.rs: run_loop, disconnect", "mercurio-server/src/server.rs: Server::process"]}
{"id": "C102", "title": "A client learns why its connection ended", "statement": "When the connection of the built-in client ends, its application is told so exactly then, after everything that arrived before, with the reason that applies: `ServerInitiated` only if the server has closed the connection and everything it had sent was read, `ClientInitiated` only if the application called `disconnect`, `KeepAliveTimeout` only if a PINGREQ could not be written, `ConnectionLost` only if a read failed or what arrived is no packet; while the connection is up it is told nothing of the kind; and the server says with a reason code why it ends a connection. (The last part holds only for refused clients: a client that is in is never sent a DISCONNECT, whether the cause is a protocol error, a keep-alive timeout, a shutdown or anything else.)", "quantifier": "every state of the system and every event in it; every history of the server", "why_tests_cant": "The reason depends on which of the racing branches of the event loop ends it, for every state of the connection; that the server never sends a certain packet is a claim over all its histories.", "anchors": ["mercurio-client/src/client.rs: run_loop, handle_incoming_packet", "mercurio-client/src/event.rs: DisconnectReason", "mercurio-client/src/connection.rs: read_packet", "mercurio-server/src/server.rs: Server::run, Handler::run"]}
{"id": "C103", "title": "The will of a client that is cut off reaches the subscribers, that of a client that disconnects does not", "statement": "In a system of one server and any number of built-in clients: as long as the connection of a client is open its will has not been published. When the server has closed the connection, for whatever reason, and no call of disconnect returned normally, the will has been published exactly once, with the topic, payload, QoS and retain flag of the connect options, and every subscriber of a matching filter gets it like any other message. If disconnect returned normally and the server did not itself give up the connection before it had read that, the will is never published. (The last two parts are about clients with a keep-alive other than 0; with keep-alive 0 the second part is false, the will is lost once the server has acted on a message of the client. The last part is false once the client has sent a keep-alive ping: the server no longer sees the DISCONNECT and publishes the will.)", "quantifier": "every run of a server and any number of clients that start clean and do not share a session, every way the streams are cut into reads, every way a connection ends", "why_tests_cant": "All interleavings of the clients, of the reads of both ends and of the failures of sockets.", "anchors": ["mercurio-server/src/server.rs: Handler::run, Handler::handle_connection, publish_will", "mercurio-server/src/session.rs: take_will, clear_will", "mercurio-client/src/client.rs: disconnect, build_connect_packet", "mercurio-client/src/options.rs: Will"]}
{"id": "C104", "title": "An application that subscribes late gets the retained messages first, then everything since", "statement": "In a system of one server and any number of built-in clients: when the application of a client that started clean subscribes to a filter it was not subscribed to, there is a moment after the call, and before any later time at which nothing is in transit from the client, such that what it gets for the filter is taken, in order and without repetition, from: one message for each topic the filter matches and that has a retained message at that moment (the last one published to it with the retain flag, unless that had no payload), then every message published since to a topic the filter matches. Nothing is missing in between if no more than 16 matching messages were published since, and nothing is missing at all once nothing is in transit.", "quantifier": "every run of a server and any number of clients that do not share the client's session, every filter, every set of retained messages, every way the streams are cut into reads", "why_tests_cant": "All interleavings of publications by others with the subscription, its way to the server and the delivery of the retained messages.", "anchors": ["mercurio-client/src/client.rs: subscribe, recv", "mercurio-server/src/session.rs: process_incoming, process_outgoing", "mercurio-server/src/broker.rs: Broker::subscribe, Broker::publish", "mercurio-storage/src/lib.rs: Storage::get_retained, Storage::store_retained"]}
{"id": "C105", "title": "A client that comes back to its session gets what was published while it was away", "statement": "A client subscribes under an identifier and afterwards leaves (in order or not) and comes back without asking for a clean start, any number of times, possibly on several connections at once. As long as the server is not restarted, nobody asks for a clean start under the identifier and the filter is not subscribed to again or unsubscribed, the packets sent for the filter on all connections of the session together are, in order and without repetition, messages from the list of the retained messages the filter matches (as they were at the subscription) followed by all matching publications since, including those made while the client was away; if never more than 16 of them are waiting and no task panics, none is skipped, and when a connection of the session has nothing more to send, all have been sent. (False beyond 16: if the client is sent nothing for a while and more than 16 matching messages are published meanwhile, only the newest 16 can still reach it. False also for messages that were sent but not acknowledged before the client left: unless the server was restarted in between, they are not sent again when the client resumes its session, whatever their QoS.)", "quantifier": "every reachable server state, every configuration, every identifier and filter, every later history of any number of connections", "why_tests_cant": "All histories of leaving and coming back, interleaved with all publications, deliveries and other connections.", "anchors": ["mercurio-server/src/session_manager.rs: SessionManager::start_session", "mercurio-server/src/session.rs: Session::begin, process_outgoing", "mercurio-server/src/server.rs: Handler::run"]}
{"id": "C106", "title": "Whatever is in transit on a connection can arrive", "statement": "Of a connected client with a keep-alive other than 0 that had nothing in transit to the server at one time and whose connection nothing ended on purpose since: in whatever state the system is, there is a way to go on, using only steps of the two sides of this connection (reads, acting on packets, sending queued messages, the application taking its events), after which the server has acted on everything the client sent and has nothing left to send to it; and if all packets the server sent have at most 4096 bytes, also one after which nothing is in transit in either direction, so that the application has got every message published on topics its filter matches (if no more than 16). No state of the system blocks this. (False for messages with a payload of 4096 bytes or more: once such a message is next on the connection, no continuation at all brings it, or any later message, to the application.)", "quantifier": "every history of any number of clients and applications, every client and filter, every packet in transit and every place where reads have cut it; for the negative part every continuation", "why_tests_cant": "A test shows that one schedule delivers; that no reachable state is a dead end needs all states.", "anchors": ["mercurio-client/src/connection.rs: Connection::read_packet", "mercurio-client/src/client.rs: event_loop", "mercurio-server/src/connection.rs: Connection::read_packet", "mercurio-server/src/server.rs: Handler::run", "mercurio-server/src/session.rs: process_outgoing"]}
{"id": "C107", "title": "What applications have published can reach all subscribers together", "statement": "Of any number of connected clients with a keep-alive other than 0 that had nothing in transit to the server at one time and whose connections nothing ended on purpose since (other clients may do what they like): in whatever state the system is, there is a way to go on, using only steps on the connections of these clients and no call of an application except taking events, after which the server has acted on everything each of them sent and has no message left to send to any of them; and if all packets it sent to them have at most 4096 bytes, also one after which nothing is in transit on any of these connections. Then every application of these clients that had subscribed has got exactly the messages its filter matches, in the order of one common list in which each client has exactly what its application published, including what was still on its way to the server (if no more than 16 for a subscription).", "quantifier": "every history of any number of clients and applications, every set of clients, every filter, every state of what is in transit in both directions", "why_tests_cant": "A test shows that one schedule delivers to a few clients; that work for one client never takes away what another one needs, in no reachable state, needs all states.", "anchors": ["mercurio-server/src/server.rs: Handler::run", "mercurio-server/src/session.rs: process_outgoing", "mercurio-server/src/broker.rs: publish", "mercurio-client/src/client.rs: event_loop", "mercurio-client/src/connection.rs: Connection::read_packet"]}
{"id": "C108", "title": "Left alone, the system comes to rest, with everything delivered", "statement": "Of any number of connected clients with a keep-alive other than 0 that had nothing in transit to the server at one time and whose connections nothing ended on purpose since: if from now on nothing happens but what happens by itself on their connections (reading, acting on packets, sending queued messages, applications taking events), in any order and without end, then from some time on nothing passes on any connection any more: no message is sent again and again and nothing goes round in circles. If moreover nothing that can be done is put off for ever, then from some time on nothing is in transit on these connections, and every application that had subscribed has got exactly the messages its filter matches, in the order of one common list in which each client has exactly what its application published (if no more than 16 for a subscription).", "quantifier": "every history of any number of clients and applications, every infinite schedule of what can happen by itself on the connections, every set of clients, every filter", "why_tests_cant": "A test runs for a while on one schedule; that every schedule ends in silence, and every fair one with everything delivered, is about infinitely many infinite executions.", "anchors": ["mercurio-server/src/server.rs: Handler::run", "mercurio-server/src/session.rs: process_incoming, process_outgoing", "mercurio-server/src/broker.rs: publish", "mercurio-client/src/client.rs: event_loop", "mercurio-client/src/connection.rs: Connection::read_packet"]}
{"id": "C109", "title": "Only the users of the password file can use the broker, they always can, and others leave no trace", "statement": "In every run of a broker that asks for credentials: an application whose options do not hold the name of a listed user and that user's password never gets a connected client; if its CONNECT gets through it is told that user name or password are wrong, and nothing else. An application that does give them is let in if its CONNECT and the answer get through, whatever other clients do meanwhile. A peer of any kind that never presents accepted credentials, whatever bytes it sends, leaves sessions, retained messages, subscriptions and every other connection as if it had never come. After `mercuriod passwd` the user is let in exactly with passwords that verify against the new hash; after `passwd -d` never.", "quantifier": "every history of any number of clients and applications, every byte stream of an outsider, every password file, every settings file with authentication on", "why_tests_cant": "That no input whatever of an unauthenticated peer changes what anybody else sees is a statement about all byte streams interleaved in all ways with all other traffic.", "anchors": ["mercurio-server/src/server.rs: Handler::run (authentication of the first packet)", "mercuriod/src/credentials.rs", "mercuriod/src/main.rs: main", "mercurio-client/src/client.rs: perform_connect"]}
{"id": "C110", "title": "A client that falls silent is disconnected in time, no other is, and its will is published then", "statement": "In every run of the server with a clock, with any number of clients: a client that gave keep-alive k > 0 and of which no packet has been completed for floor(1.5 k) seconds, plus however late the runtime attends to timers, is not connected any more, and its will has been published exactly once as its CONNECT gave it; bytes that do not complete a packet and messages sent to the client do not prolong the time. Less than floor(1.5 k) seconds after a packet of the client the timer never ends its connection, whatever the other clients do. Connections that have sent no CONNECT are closed after a while too.", "quantifier": "every interleaving of accepted connections, bytes cut in any way, packets, deliveries, stuck writes, timers and waiting times of any length on any number of connections, every keep-alive, every lateness of the runtime", "why_tests_cant": "Tests wait for a timer on one connection with a few timings; the claim is about all timings and all traffic on all connections, including byte streams that arrive in pieces.", "anchors": ["mercurio-server/src/server.rs: Handler::handle_connection (keep-alive timer)", "mercurio-server/src/server.rs: Listener::handle_connection", "mercurio-server/src/connection.rs: read_packet, write_packet"]}
{"id": "C111", "title": "A built-in client that is left alone stays connected", "statement": "In every run of the server and its built-in clients with their clocks, a client with keep-alive k > 0 whose application takes its events stays connected for as long as the application wishes: its event loop pings each max(1, floor(k/2)) seconds, the server acts on the pings, and its timer, set to floor(1.5 k) seconds, never strikes. With clocks the system does nothing that it could not do without them.", "quantifier": "every interleaving of connects, bytes cut in any way, packets, deliveries, stuck writes, timers of server and clients and waiting times of any length, for any number of clients, every keep-alive and every lateness of the runtime", "why_tests_cant": "Tests wait for a few pings of one client with one keep-alive; the claim is about all timings and traffic, and about connections that last longer than any test.", "anchors": ["mercurio-client/src/client.rs: Client::event_loop (ping_timer)", "mercurio-client/src/client.rs: Client::connect", "mercurio-server/src/server.rs: Handler::handle_connection (keep-alive timer)", "mercurio-server/src/connection.rs: read_packet, parse_packet", "mercurio-packets/src/pingreq.rs: PingReqPacket::decode"]}
{"id": "C112", "title": "A slow subscriber loses exactly the oldest messages beyond sixteen", "statement": "From the moment a client subscribes to a filter, the packets it is sent for it, in every history that leaves the subscription in place and whether the client keeps up or not, are exactly those of a mailbox: first the retained messages the filter matches, one per topic, as they were at the subscription, none of which is ever dropped; then the matching publications in the order in which the broker accepted them, of which sixteen can wait: when another one comes in, the oldest one waiting is dropped, and no other.", "quantifier": "every reachable server state, every configuration, every connection and valid filter, every later history of any number of connections in which the subscription is left in place, and every pace at which the subscriber is served", "why_tests_cant": "Which messages are lost depends on how publications and deliveries interleave; tests see a few interleavings, the claim fixes the outcome of all of them.", "anchors": ["mercurio-server/src/broker.rs: Broker::subscribe, Broker::publish", "mercurio-server/src/topic_tree.rs: TopicTree::subscribe, publish (broadcast::channel(16))", "mercurio-server/src/session.rs: Session::process_outgoing, add_subscription"]}
{"id": "C113", "title": "An acknowledged message reaches the connected subscribers", "statement": "If the server answers a QoS 1 or QoS 2 PUBLISH with PUBACK or PUBREC, the message is sent to every connected client with a matching subscription that stays in place: when the client has nothing more to be sent, it has been sent the message. (Proved for subscribers that keep up. False otherwise: of any number of publications that are acknowledged before the subscriber is sent the next message, only the newest sixteen can ever reach it.)", "quantifier": "every reachable server state, every configuration, every subscriber, publisher and valid filter, every list of publications and every later history", "why_tests_cant": "A test publishes a few messages to a fast subscriber; that an acknowledgement is given although the message is dropped shows only with particular interleavings, and that nothing later makes up for it is a claim about all continuations.", "anchors": ["mercurio-server/src/session.rs: Session::handle_publish, process_outgoing", "mercurio-server/src/broker.rs: Broker::publish", "mercurio-server/src/topic_tree.rs: TopicTree::publish"]}
{"id": "C114", "title": "Subscribing again to a filter loses no message", "statement": "A client that sends a SUBSCRIBE with a filter it is already subscribed to keeps receiving: every message published on a matching topic since the first SUBSCRIBE is sent to it, also the messages that were waiting when it subscribed again (MQTT-3.8.4-4). (Proved if nothing was waiting. False otherwise: the new subscription replaces the old one with everything that waits in it, and unless the broker holds a waiting message as retained message, it is never sent.)", "quantifier": "every reachable server state, every configuration, connection and valid filter, every history before and after the second SUBSCRIBE that leaves the subscription in place", "why_tests_cant": "Tests subscribe once, or again while nothing is happening; the loss needs a message in the window between publication and delivery, and the claim is about all such windows and all continuations.", "anchors": ["mercurio-server/src/session.rs: Session::handle_subscribe, add_subscription", "mercurio-server/src/broker.rs: Broker::subscribe"]}
{"id": "C115", "title": "What the client has acknowledged is not sent again", "statement": "Once a client has acknowledged a message (PUBACK for QoS 1, PUBREC or PUBCOMP for QoS 2), the message is not sent to it again when it resumes its session, also after restarts of the server (MQTT-4.3.3: no PUBLISH after PUBREC was received). (Proved for PUBACK and PUBCOMP. False for PUBREC: although the server has answered it with PUBREL, after a restart it sends the PUBLISH again and not the PUBREL.)", "quantifier": "every configuration, every history of any number of connections with any number of restarts, every client, packet identifier and message in flight", "why_tests_cant": "It depends on where in the QoS 2 exchange a restart falls and on everything sent under the identifier since; tests cannot go through all histories.", "anchors": ["mercurio-server/src/server.rs: Handler::handle_connection (remove_inflight after PUBACK and PUBCOMP, resend of in-flight messages)", "mercurio-server/src/session.rs: Session::handle_pubrec, handle_pubcomp", "mercurio-storage/src/lib.rs: get_all_inflight"]}
{"id": "C116", "title": "The duplicate flag marks what is sent again, and nothing else", "statement": "A PUBLISH the server sends has the duplicate flag exactly if it is sent again: to a client that resumes its session, a message it was sent before (MQTT-3.3.1-3: the flag of an incoming PUBLISH is not propagated). (Proved for histories in which no publisher sets the flag. False otherwise: the flag of the publisher is passed on to the subscribers, who are sent the message for the first time.)", "quantifier": "every configuration, every history of any number of connections, every event after it and every PUBLISH it makes the server send; for the negative part every reachable state, subscriber, publisher and message", "why_tests_cant": "It is a statement about every packet of every history; tests look at a few packets.", "anchors": ["mercurio-server/src/session.rs: Session::handle_publish (Message), process_outgoing", "mercurio-server/src/server.rs: Handler::handle_connection (resend with dup)", "mercurio-server/src/server.rs: publish_will"]}
{"id": "C117", "title": "What the broker keeps survives a restart of the daemon", "statement": "When the server is stopped and started again, a client that resumes its session finds it, with its subscriptions and the messages it has not acknowledged, and retained messages are still given to new subscribers. (False in every case: whatever happened before the start, a client that comes for the first time since is told that there is no session and has no subscription, and retained messages from before are never sent. The server keeps everything in memory and cannot be configured otherwise, although the SQLite storage exists. Proved: after any number of starts the server behaves as one that was started once.)", "quantifier": "every configuration, every history before the start with any number of earlier starts, every history after it, every client and every subscription", "why_tests_cant": "Tests run one server from its start; that no history before a start can make a difference afterwards is a claim about all histories.", "anchors": ["mercurio-server/src/server.rs: run_with_tls (MemoryStore::new), Listener, Handler", "mercuriod/src/main.rs: main"]}
{"id": "C118", "title": "A client that was given an identifier can come back under it", "statement": "A client that connects without an identifier and is told one by the server in the CONNACK can later connect under it and resume its session: it is told that the session is present, it has the subscriptions it had, is sent again what it has not acknowledged, and is sent what was published on its subscriptions while it was away. (Proved except for the last part, which is false in every case: unless retained, what is published while it is away is never sent to it, because the session in memory stays under the empty identifier and only its copy in the storage is found.)", "quantifier": "every configuration, every history of any number of other clients before, during and after its first connection and after its return, every identifier the server chooses that nobody else uses, every subscription", "why_tests_cant": "It depends on what of the session is in memory and what in the storage after arbitrary histories, and the loss is a claim about all continuations.", "anchors": ["mercurio-server/src/session.rs: Session::begin, restore_subscriptions", "mercurio-server/src/session_manager.rs: SessionManager::start_session"]}
{"id": "C119", "title": "What a client is answered depends on nobody else", "statement": "The answers a client gets to its packets, and whether its connection is kept, depend only on the configuration and on the packets it sends: two servers with different other clients, subscriptions, retained messages and stored sessions, whatever happens on them meanwhile and whatever is forwarded to the client in between, answer the same packets of a client that asks for a clean start in the same way. On the level of bytes: a client to which nothing is forwarded is sent the same bytes as if it were the only client the server ever had. (As long as no other connection uses its client identifier.)", "quantifier": "every pair of reachable servers with the same configuration, every CONNECT with clean start, every pair of later histories of any number of connections with the same packets from the client; for bytes: every history and every way of cutting the bytes into chunks", "why_tests_cant": "It compares two executions, and all of their environments: a test fixes one environment; an information flow through shared state (broker, storage, session table) shows only in particular ones.", "anchors": ["mercurio-server/src/session.rs: Session::process_incoming and its handlers", "mercurio-server/src/session_manager.rs: SessionManager::start_session", "mercurio-server/src/server.rs: Handler::handle_connection", "mercurio-server/src/connection.rs: Connection::read_packet, write_packet"]}
{"id": "C120", "title": "Passwords leave no trace", "statement": "What a client's password is shows in nothing but whether it is accepted: two histories that are the same but for passwords, where corresponding passwords are both accepted or both refused, produce the same log at every level of detail, the same packets to every client, the same open connections, and the same contents of the storage and the broker.", "quantifier": "every configuration with any check of passwords, every server state, every pair of histories of any number of connections that differ only in passwords, every way of printing packets", "why_tests_cant": "It compares all pairs of executions: a test can look for one password in one log, not show that no log, packet or record depends on any.", "anchors": ["mercurio-server/src/server.rs: Handler::run, Listener::handle_connection", "mercurio-server/src/session_manager.rs: SessionManager::start_session", "mercurio-server/src/session.rs: Session::begin, set_connect_packet"]}
{"id": "C121", "title": "The log tells of every refused password", "statement": "The warnings about failed authentication in the server's log are exactly the attempts with a user name and password that the configured check refuses, in order, each with the user name. (False if authentication is required and no check is configured, as in a daemon without a password file: then every client is refused and the log says nothing. False as for the lines a reader sees: a user name or client identifier may contain line feeds, so a peer without any password can put any line of its choice into the log; if no identifier, user name or will topic contains a line feed, every message above the debug level is one line.)", "quantifier": "every configuration, every server state, every history of any number of connections; for forged lines: every text of up to 65533 bytes", "why_tests_cant": "All histories of attempts, interleaved with everything else that is logged, and all user names.", "anchors": ["mercurio-server/src/server.rs: Handler::run, Handler::publish_will", "mercurio-server/src/session_manager.rs: SessionManager::start_session", "mercurio-server/src/session.rs: Session::begin"]}
{"id": "C122", "title": "The log tells of every session and every will", "statement": "The lines of the server's log about sessions are exactly the clients that are admitted, in order, each with its identifier (the generated one if it sent none), and they say that a session was resumed exactly when the CONNACK reports one; the lines about wills are exactly the wills handed to the broker, in order, each with its topic and the identifier of the client whose connection ended. Other lines do not begin like these.", "quantifier": "every configuration, every server state, every history of any number of connections and every reason for which connections end; for sessions: histories in which CONNACKs can be written", "why_tests_cant": "All histories, with all identifiers, wills and stored sessions, interleaved with everything else that is logged.", "anchors": ["mercurio-server/src/server.rs: Handler::run, Handler::publish_will", "mercurio-server/src/session_manager.rs: SessionManager::start_session", "mercurio-server/src/session.rs: Session::begin"]}
{"id": "C123", "title": "Payloads are opaque to the server", "statement": "The server handles payloads without looking at them: if all payloads that clients publish, and those of their wills, are replaced in any way that keeps empty payloads empty and others non-empty, the server sends exactly the same packets at the same events, with the payloads replaced in the same way - through routing, retained messages, retransmission, wills and restarts. In particular every non-empty payload it sends is one that a client sent before.", "quantifier": "every replacement of payloads that keeps emptiness, every configuration, every history of any number of connections from a new server", "why_tests_cant": "It relates all pairs of histories under all replacements of payloads; a test shows it for the payloads it uses.", "anchors": ["mercurio-server/src/session.rs: Session::process_incoming, process_outgoing, handle_publish", "mercurio-server/src/broker.rs: Broker::publish, subscribe", "mercurio-server/src/topic_tree.rs: TopicTree", "mercurio-storage/src/memory.rs: MemoryStore", "mercurio-server/src/server.rs: Handler::run, publish_will"]}
{"id": "C124", "title": "Payloads do not show in the log", "statement": "Above the debug level nothing that clients publish or leave as payload of a will shows in the server's log: two histories that are the same but for payloads (empty in both or in none) write the same lines. (False at the debug level: every message sent to a client is written with its payload.)", "quantifier": "every configuration, every pair of histories of any number of connections that differ only in payloads, every reason for which connections end, every way of printing packets", "why_tests_cant": "It compares all pairs of executions: a test can look for one payload in one log.", "anchors": ["mercurio-server/src/server.rs: Handler::run, Handler::publish_will", "mercurio-server/src/session_manager.rs: SessionManager::start_session", "mercurio-server/src/session.rs: Session::begin"]}
{"id": "C125", "title": "Identifiers are only compared", "statement": "Client identifiers and packet identifiers are nothing but names to the server: it compares them for equality (and client identifiers with the empty one) and copies them. If they are renamed throughout a history, different ones to different ones and the empty client identifier to itself, the server sends exactly the same packets at the same events, with the identifiers renamed in the same way - the identifiers it assigns, those of acknowledgements, and those of forwarded and retransmitted messages.", "quantifier": "every injective renaming of client identifiers that keeps the empty one, every injective renaming of packet identifiers, every configuration, every history of any number of connections from a new server", "why_tests_cant": "It relates all pairs of histories under all renamings; a test uses a few identifiers.", "anchors": ["mercurio-server/src/session_manager.rs: SessionManager", "mercurio-server/src/session.rs: Session::begin, process_incoming, process_outgoing", "mercurio-storage/src/memory.rs: MemoryStore", "mercurio-server/src/server.rs: Handler::run"]}
{"id": "C126", "title": "Topics are only taken apart into levels and compared", "statement": "The levels of topics are nothing but names to the server: apart from '/', '+', '#' and NUL no character of a topic means anything to it, and of the length of a topic only whether it exceeds 65535 bytes. If levels are renamed throughout a history - in publications, wills, SUBSCRIBE and UNSUBSCRIBE - different ones to different ones of the same length, without touching those four characters, then the server sends exactly the same packets at the same events, with the topics renamed in the same way. So no level has a hidden meaning, upper and lower case are different, and nothing but equal levels and wildcards makes a filter match.", "quantifier": "every injective, length-preserving renaming of levels that keeps the four special characters, every configuration, every history of any number of connections from a new server", "why_tests_cant": "It relates all pairs of histories under all renamings of topics; a test uses a few topics.", "anchors": ["mercurio-core/src/topic.rs: validate_publish_topic, validate_subscribe_filter", "mercurio-server/src/topic_tree.rs: TopicTree::subscribe, publish", "mercurio-storage/src/memory.rs: topic_matches_filter", "mercurio-server/src/session.rs: process_incoming, process_outgoing"]}
{"id": "C127", "title": "The output of the command line tool shows what arrived", "statement": "From what `mercurio sub` prints one can tell which messages have arrived: two different sequences of messages (payloads, and the topics they are given under if topics are asked for) are printed differently. (Holds for payloads that are texts of one line, under topics without line feed and without a colon followed by a space. False in general: payloads are printed as they are, so anybody who may publish can make one message look like several, under any topics.)", "quantifier": "all sequences of messages, all payloads and topics, with and without topics", "why_tests_cant": "It relates all pairs of sequences of messages of any length.", "anchors": ["mercurio/src/main.rs: run_subscribe"]}
{"id": "C128", "title": "The messages of one client arrive in the order in which it sent them", "statement": "What a subscriber is sent of one publishing client comes in the order in which that client sent it. (Holds for the messages that come by one subscription, whatever their topics and QoS. False across subscriptions: if two filters of the subscriber match different topics, the later message can be sent first; if two filters match the same topic, the earlier message can be sent again after the later one.)", "quantifier": "every reachable server state, subscriber, filters, publisher and later history", "why_tests_cant": "It quantifies over all histories and all orders in which the server serves the subscriptions of a connection; the order is chosen at random at run time.", "anchors": ["mercurio-server/src/session.rs: Session::process_outgoing, StreamMap", "mercurio-server/src/server.rs: Handler::handle_connection"]}
{"id": "C129", "title": "It makes no difference how filters are grouped into packets", "statement": "Several SUBSCRIBE packets of a client right after one another have exactly the effect of one SUBSCRIBE with all their filters, whatever their packet identifiers, options and properties: the server is in the same state afterwards, so everything that happens later is the same, and the reason codes of the answers put together are those of the one answer. The same holds for UNSUBSCRIBE.", "quantifier": "every reachable server state, every connection, every list of packets with any numbers of filters, valid or not, repeated or not", "why_tests_cant": "It relates two executions from every state for every way to group any number of filters.", "anchors": ["mercurio-server/src/session.rs: Session::handle_subscribe, Session::handle_unsubscribe", "mercurio-server/src/session_manager.rs: SessionManager::save_subscriptions"]}
{"id": "C130", "title": "Whatever the server sends to an MQTT 5 client is a legal MQTT 5 packet", "statement": "If the clients speak MQTT 5 and obey the standard, every packet the server sends (CONNACK, messages, messages sent again, acknowledgements, SUBACK, UNSUBACK, PINGRESP) is byte for byte a packet the MQTT 5 standard allows a server to send, and it says what the server means. In a system of the server and the project's own MQTT 5 clients, all bytes written to a connection are such packets one after the other. (Holds except where it is false: a message for a filter with wildcards carries the filter as its topic name, which may not contain wildcards; AUTH packets lack the length of their properties; a will with QoS 1 or 2 is sent without packet identifier, see C87.)", "quantifier": "every history of events of MQTT 5 clients that obey the standard (crashes and restarts included), every next event and every packet sent in it; and every history of the server with built-in clients, every connection and all bytes written to it", "why_tests_cant": "It quantifies over all histories and all packets sent in them, and compares bytes with the grammar of the standard, not with what the project's own decoder accepts.", "anchors": ["mercurio-server/src/session.rs: Session::process_incoming, Session::process_outgoing, Session::begin", "mercurio-server/src/server.rs: Handler::run", "mercurio-packets/src: encoders"]}
{"id": "C131", "title": "Whatever the client library sends is a legal packet", "statement": "The CONNECT a client sends (in MQTT 3.1, 3.1.1 or 5) is byte for byte the legal packet that says what the options say. After it an MQTT 5 client sends only legal packets: the one that says what the call said, the acknowledgement of a message received, or a ping; nothing follows a DISCONNECT. (Holds except where it is false: topics with wildcards and requests without filters are sent although they are illegal; after 65535 packet identifiers 0 is used, see C57; what clients of MQTT 3.1 and 3.1.1 send after the CONNECT is not legal in those versions, or means something else.)", "quantifier": "all legal connect options of the three versions; all sequences of up to 65535 calls, packets of the server and ticks of the timer; all runs of a system of a server and clients", "why_tests_cant": "It quantifies over all options, calls and orders of calls and packets, and compares bytes with the grammar of the standard, not with what the project's own decoder accepts.", "anchors": ["mercurio-client/src/client.rs: build_connect_packet, event_loop, handle_publish, handle_subscribe, handle_unsubscribe, handle_disconnect, handle_incoming_packet", "mercurio-packets/src: encoders"]}
{"id": "C132", "title": "A crash at any point loses nothing that was answered", "statement": "With a storage that survives the process: whenever the process dies while it handles an event, the client has been written a beginning of what it would have been written, and if that is anything, the storage is as after the whole event and an orderly restart: an answered SUBSCRIBE or UNSUBSCRIBE is in force when the client comes back, a QoS 1 or 2 message written to a client is sent again. Whenever it dies, each table of the storage is as before or as after the event, and no will is lost: the wills are as before, or the event is stored completely. A connection attempt cut short leaves the data of other clients, retained and unacknowledged messages as they were, and a resumption cut short can be repeated with the same outcome. (False for connection attempts: the CONNACK is written before the session is stored, so a session the client was told of may not exist; and a clean start cut short between its two removals leaves the old will behind, which may be published later.)", "quantifier": "all configurations, server states, events and points during their handling at which the process dies", "why_tests_cant": "The process would have to be killed at every point between two effects, in every state; tests run handlers to their end.", "anchors": ["mercurio-server/src/server.rs: run", "mercurio-server/src/session_manager.rs: start_session, save_subscriptions, store_inflight, remove_inflight, delete_will", "mercurio-server/src/broker.rs: publish", "mercurio-server/src/session.rs: process_incoming, process_outgoing, begin"]}
{"id": "C133", "title": "The server does what a plain broker does", "statement": "Take a broker that knows only, for every client, one mailbox per filter it has subscribed to (at most 16 waiting messages, the oldest make room), its will, the filters kept for it and its unacknowledged messages, and for every topic the retained message, and that puts each message into every mailbox whose filter matches. Whatever happens (clients connect, send packets, are sent messages, are cut off, the process restarts), as long as the wills announced have valid topics, the packets the server writes are, event by event, packets this broker may write. The broker leaves open only the order of retained messages and of messages sent again, and the numbers of new accounts; so in everything else the packets are determined. The same holds for bytes: whatever arrives in whatever pieces, the bytes written to each client are the encodings of what this broker sends it, and packets properly encoded by a client are the packets this broker receives from it.", "quantifier": "all configurations and all histories of events whose CONNECTs announce wills with valid topics only", "why_tests_cant": "It equates two systems over every finite history of any number of clients; tests compare a few histories with expected outputs written by hand.", "anchors": ["mercurio-server/src/server.rs: run", "mercurio-server/src/session_manager.rs: start_session", "mercurio-server/src/session.rs: process_incoming, process_outgoing", "mercurio-server/src/broker.rs: publish, subscribe", "mercurio-server/src/topic_tree.rs"]}
{"id": "C134", "title": "Whom the server serves first matters only to those who share a topic", "statement": "After every history, take an event of one client and an event of another client with a different identifier (a packet arrives, a waiting message is sent, the connection ends) that publish to no common topic and no common subscription, and nothing the other subscribes to or is about to be sent. In either order, each event has the same answer as alone, and what the server knows afterwards is the same: the same knowledge of the plain broker of C133 explains everything it does from then on, whatever happens.", "quantifier": "all configurations, all histories whose wills have valid topics, all pairs of such events of different clients, all continuations", "why_tests_cant": "Which client the runtime serves first cannot be controlled from a test, and the claim compares both orders in every reachable state and for every continuation.", "anchors": ["mercurio-server/src/server.rs: run", "mercurio-server/src/session.rs: process_incoming, process_outgoing", "mercurio-server/src/broker.rs: publish, subscribe", "mercurio-storage/src/memory.rs: store_retained, get_retained"]}
{"id": "C135", "title": "Clients that nobody in a group listens to make no difference to the group", "statement": "Take any history and any group of its connections, such that the other connections use client identifiers of their own and publish (also as will) nothing that matches a filter the group subscribes to. What the group is sent, packet by packet, is what a plain broker (C133) may send that serves the group alone, with the same restarts and without any of the other events. The others may listen to the group. The same holds for what is written to the group's byte streams, however the bytes are split.", "quantifier": "all configurations, all histories whose wills have valid topics, all groups of connections with such neighbours", "why_tests_cant": "Isolation compares each run with a run without the other clients, for any number of clients, connections, reconnections, wills, retained messages and restarts.", "anchors": ["mercurio-server/src/server.rs: run", "mercurio-server/src/session.rs: Session, process_incoming, process_outgoing", "mercurio-server/src/session_manager.rs: start_session", "mercurio-server/src/broker.rs: publish, subscribe", "mercurio-storage/src/memory.rs: store_retained, get_retained, save_session, load_session"]}
{"id": "C136", "title": "Writing a packet crashes neither the server nor the client", "statement": "Writing a packet aborts exactly if one of its property blocks contains a subscription identifier of 2^28 or more, or is too long for a length field of four bytes; otherwise it gives bytes. Every packet the server sends, in any state and at any event, and every packet the client sends, for any options and calls, can be written; the client's loop never ends because of writing, except for a ping the socket does not take.", "quantifier": "all packets; all server states and events; all client states, options, calls and packets received", "why_tests_cant": "Sizes are unbounded and the aborting packets are ones no test of the server or client sends.", "anchors": ["mercurio-core/src/codec.rs: VariableByteInteger::encoded_size", "mercurio-packets/src/lib.rs: ControlPacket::encode", "mercurio-server/src/connection.rs: write_packet", "mercurio-client/src/connection.rs: write_packet", "mercurio-client/src/client.rs: event_loop, build_connect_packet"]}
{"id": "C137", "title": "Each side introduces itself once, first, and stops when it says so", "statement": "What the server writes on a connection, whatever bytes any client sends, is nothing, or a single CONNACK with an error, after which the connection is over, or a CONNACK that reports success followed by packets a server may send then: there is never a second CONNACK and nothing is written before it. Once the connection is over nothing more is written on it. A connected client of the library, whatever its application calls and whatever arrives, writes only packets that may follow its CONNECT, never a second CONNECT, and nothing after a DISCONNECT.", "quantifier": "every history of byte chunks on any number of connections; every sequence of calls and packets of a client", "why_tests_cant": "All byte streams and all interleavings with messages that are to be forwarded to the connection.", "anchors": ["mercurio-server/src/server.rs: handle_connection, Handler::run", "mercurio-server/src/session.rs: begin, process_incoming, process_outgoing", "mercurio-client/src/client.rs: event_loop"]}
{"id": "C138", "title": "Every answer answers a packet, in order, and none is missing", "statement": "What the server sends on a connection besides messages are answers, each to another packet of that client, in the order in which the client sent them, of the kind the packet asks for (CONNACK for CONNECT, PUBACK or PUBREC for a publication by its QoS, PUBREL for PUBREC, PUBCOMP for PUBREL, SUBACK, UNSUBACK, PINGRESP, AUTH) and with its packet identifier: there is never an answer nobody asked for, nor two answers to one packet. As long as the connection is open none is missing: the answers are those to all packets read on it that ask for one. There are at most as many as bytes have been received on the connection.", "quantifier": "every history of packets on any number of connections, from any state of the server; every history of byte chunks", "why_tests_cant": "All histories of all connections, with messages forwarded in between; a surplus answer may depend on what other clients have done before.", "anchors": ["mercurio-server/src/session.rs: process_incoming, handle_publish, handle_subscribe, handle_unsubscribe, handle_auth", "mercurio-server/src/server.rs: Handler::run"]}
