{
 "claims": [
  {
   "property": "C01",
   "status": "proved",
   "theorems": [
    "Mercurio.C01_vbi_roundtrip"
   ],
   "note": "Variable byte integers survive the wire. [C01_vbi_roundtrip] C01: every integer below 2^28 survives encoding followed by decoding, whatever follows."
  },
  {
   "property": "C02",
   "status": "proved",
   "theorems": [
    "Mercurio.C02_vbi_size_minimal",
    "Mercurio.C02_vbi_no_shorter",
    "Mercurio.C02_vbi_prefix_free",
    "Mercurio.C02_vbi_size_aborts"
   ],
   "note": "Variable byte integer encodings are minimal and have the announced size. [C02_vbi_size_minimal] C02: the announced size is the number of bytes produced; it is between 1 and 4 and least among the numbers of 7-bit digits that can hold the value. [C02_vbi_no_shorter] C02: no byte string that decodes to `n` is shorter than the encoding of `n`. [C02_vbi_prefix_free] C02: no encoding is a prefix of the encoding of another integer. [C02_vbi_size_aborts] C02: the announced size aborts for integers of 2^28 and more."
  },
  {
   "property": "C03",
   "status": "proved",
   "theorems": [
    "Mercurio.C03_vbi_incomplete_iff",
    "Mercurio.C03_vbi_rejected_iff",
    "Mercurio.C03_vbi_abort_iff",
    "Mercurio.C03_vbi_value_iff",
    "Mercurio.C03_vbi_value_lt",
    "Mercurio.C03_vbi_outcomes"
   ],
   "note": "Variable byte integer decoding has exactly four outcomes. [C03_vbi_incomplete_iff] C03 (a): 'incomplete' exactly for at most four bytes that all have the continuation bit. [C03_vbi_rejected_iff] C03 (b): rejected as malformed, or an abort, exactly for four continuation bytes and a fifth byte. [C03_vbi_abort_iff] C03 (b): the abort happens only with overflow checks on, and exactly when the fifth byte's low bits are 16 or more. [C03_vbi_value_iff] C03 (c): otherwise the base-128 value of the bytes up to the first one without the continuation bit, consuming exactly those. [C03_vbi_value_lt] C03 (c): a decoded value is below 2^28. [C03_vbi_outcomes] C03: there is no other outcome."
  },
  {
   "property": "C04",
   "status": "proved",
   "theorems": [
    "Mercurio.C04_binary_roundtrip",
    "Mercurio.C04_text_roundtrip",
    "Mercurio.C04_binary_exact",
    "Mercurio.C04_text_exact",
    "Mercurio.C04_truncated_refused",
    "Mercurio.C04_oversize_truncates",
    "Mercurio.C04_oversize_lost"
   ],
   "note": "Round trip in the format of the standard, exactness of what is delivered, refusal of truncated fields, and the proof that values over 65535 bytes are lost (length prefix modulo 65536)."
  },
  {
   "property": "C05",
   "status": "proved",
   "theorems": [
    "Mercurio.C05_accepted_is_utf8",
    "Mercurio.C05_non_utf8_rejected"
   ],
   "note": "Only valid UTF-8 ever becomes text. [C05_accepted_is_utf8] C05: a text field that is accepted is valid UTF-8 (and is the field that was received). [C05_non_utf8_rejected] C05: a complete field holding anything else is rejected as malformed."
  },
  {
   "property": "C06",
   "status": "proved",
   "theorems": [
    "Mercurio.C06_reason_roundtrip",
    "Mercurio.C06_reason_byte_stable",
    "Mercurio.C06_reason_accepted_iff",
    "Mercurio.C06_standard_numbers"
   ],
   "note": "Reason codes survive the wire up to their shared code 0x00. [C06_reason_roundtrip] C06: each reason code decodes back to itself, the two other names of 0x00 to success. [C06_reason_byte_stable] C06: an accepted byte re-encodes to itself and is consumed alone. [C06_reason_accepted_iff] C06: a byte is accepted iff it is one of the 43 assigned codes, otherwise it is malformed. [C06_standard_numbers] C06: each reason is written as the number MQTT 5 gives it, and a number is read as the reason it stands for (0 as success)."
  },
  {
   "property": "C07",
   "status": "partial",
   "theorems": [
    "Mercurio.C07_property_roundtrip_partial",
    "Mercurio.C07_request_response_information_false",
    "Mercurio.C07_unknown_identifier"
   ],
   "note": "Every MQTT 5 property survives the wire. [C07_property_roundtrip_partial] C07: a property other than Request Response Information survives the wire, and its bytes are the ones the standard prescribes. Missing: Request Response Information, for which the claim is false (next theorem). [C07_request_response_information_false] C07 is false for Request Response Information: whatever its value, it comes back as Request Problem Information."
  },
  {
   "property": "C08",
   "status": "proved",
   "theorems": [
    "Mercurio.C08_property_size",
    "Mercurio.C08_announced_sizes",
    "Mercurio.C08_records",
    "Mercurio.C08_block_announced"
   ],
   "note": "Announced sizes equal produced bytes. [C08_property_size] C08: the announced size of a property is the number of bytes it is encoded to (the announcement aborts only for a subscription identifier of 2^28 or more). [C08_announced_sizes] C08: whenever a property list, a property block or a CONNECT payload announces a size, that is the number of bytes it appends. [C08_records] C08: the size each kind of property record announces is the number of bytes it writes. [C08_block_announced] C08: the announcement of a block succeeds unless the block is 2^28 bytes or more (or carries an oversized subscription identifier)."
  },
  {
   "property": "C09",
   "status": "proved",
   "theorems": [
    "Mercurio.C09_header_exact",
    "Mercurio.C09_encode_no_error"
   ],
   "note": "The fixed header announces exactly the bytes that follow. [C09_header_exact] C09: an encoded packet within the size limit is the type and flags byte of the standard, the variable byte integer (least number of bytes) of n, and exactly n further bytes. [C09_encode_no_error] C09: an encoder never returns an error."
  },
  {
   "property": "C10",
   "status": "proved",
   "theorems": [
    "Mercurio.C10_connect_roundtrip"
   ],
   "note": "CONNECT survives the wire. [C10_connect_roundtrip] C10: a consistent and admissible CONNECT, of any protocol version and read by a peer of any version, survives the wire."
  },
  {
   "property": "C11",
   "status": "proved",
   "theorems": [
    "Mercurio.C11_connack_roundtrip",
    "Mercurio.C11_connack_v3_roundtrip"
   ],
   "note": "CONNACK survives the wire in its own version. [C11_connack_roundtrip] C11: an admissible MQTT 5 CONNACK survives the wire. [C11_connack_v3_roundtrip] C11: a CONNACK for MQTT 3.x is four bytes with the return code of the standard and is read back, in 3.x, with the same session-present flag and the reason of that return code."
  },
  {
   "property": "C12",
   "status": "proved",
   "theorems": [
    "Mercurio.C12_publish_roundtrip"
   ],
   "note": "PUBLISH survives the wire. [C12_publish_roundtrip] C12: an admissible PUBLISH survives the wire."
  },
  {
   "property": "C13",
   "status": "proved",
   "theorems": [
    "Mercurio.C13_ack_roundtrip"
   ],
   "note": "Acknowledgement packets survive the wire. [C13_ack_roundtrip] C13: PUBACK, PUBREC, PUBREL and PUBCOMP survive the wire."
  },
  {
   "property": "C14",
   "status": "proved",
   "theorems": [
    "Mercurio.C14_subscribe_roundtrip",
    "Mercurio.C14_unsubscribe_roundtrip",
    "Mercurio.C14_suback_roundtrip",
    "Mercurio.C14_unsuback_roundtrip",
    "Mercurio.C14_suback_v3_roundtrip",
    "Mercurio.C14_unsuback_v3_roundtrip"
   ],
   "note": "Subscription packets survive the wire. [C14_subscribe_roundtrip] C14: a SUBSCRIBE with at least one entry survives the wire, entries in order. [C14_unsubscribe_roundtrip] C14: so does an UNSUBSCRIBE. [C14_suback_roundtrip] C14: an MQTT 5 SUBACK survives the wire. [C14_unsuback_roundtrip] C14: an MQTT 5 UNSUBACK survives the wire. [C14_suback_v3_roundtrip] C14: an MQTT 3.x SUBACK is read back, in 3.x, with the same id, one result per entry in order. [C14_unsuback_v3_roundtrip] C14: an MQTT 3.x UNSUBACK is read back with the same id (it carries nothing else)."
  },
  {
   "property": "C15",
   "status": "partial",
   "theorems": [
    "Mercurio.C15_disconnect_roundtrip_partial",
    "Mercurio.C15_ping_false",
    "Mercurio.C15_auth_false",
    "Mercurio.C15_disconnect_properties_false",
    "Mercurio.C15_disconnect_expiry_false"
   ],
   "note": "DISCONNECT, AUTH and ping packets survive the wire. [C15_disconnect_roundtrip_partial] C15: a DISCONNECT without properties survives the wire. Missing (and false, see below): DISCONNECT with properties, AUTH, PINGREQ, PINGRESP. [C15_ping_false] C15 is false for the pings: their length byte stays unread, whatever follows. [C15_auth_false] C15 is false for every AUTH packet: none reads back as it was sent. [C15_disconnect_properties_false] C15 is false for every DISCONNECT with at least one property. [C15_disconnect_expiry_false] The same, on a concrete packet: a DISCONNECT with a session expiry interval is refused."
  },
  {
   "property": "C16",
   "status": "proved",
   "theorems": [
    "Mercurio.C16_check_exact",
    "Mercurio.C16_check_any_bytes"
   ],
   "note": "Completeness check never lies about a packet in transit. [C16_check_exact] C16: the completeness check answers \"incomplete\" for every strict prefix of an encoded packet and \"complete\" for the packet followed by anything. [C16_check_any_bytes] C16, for arbitrary bytes behind a length field in its shortest form: the check accepts exactly if the announced number of bytes is there."
  },
  {
   "property": "C17",
   "status": "proved",
   "theorems": [
    "Mercurio.C17_chunked_stream"
   ],
   "note": "The server reads the packets that were sent however the network splits them. [C17_chunked_stream] C17: any sequence of packets (pings, AUTH and DISCONNECT with properties excluded by `Sent`), the bytes split into chunks in any way and followed by an unfinished piece of another packet, is read as exactly these packets in order; the end of the stream is then reported as a clean close exactly if no unfinished piece is pending."
  },
  {
   "property": "C18",
   "status": "partial",
   "theorems": [
    "Mercurio.C18_after_ping_false",
    "Mercurio.C18_ping_delivered_partial"
   ],
   "note": "A ping does not disturb the packets after it. [C18_after_ping_false] C18 is false, always: once a PINGREQ has been read, no further packet is delivered on this connection, whatever the peer sends and however it arrives. [C18_ping_delivered_partial] C18: what holds is that the ping itself is delivered, however it is split. Missing: everything after it (previous theorem)."
  },
  {
   "property": "C19",
   "status": "partial",
   "theorems": [
    "Mercurio.C19_connect_reads_on_false",
    "Mercurio.C19_puback_length3_false",
    "Mercurio.C19_ping_false",
    "Mercurio.C19_consumes_prefix_partial",
    "Mercurio.C19_progress"
   ],
   "note": "Parsing never reads past the packet's announced end. [C19_connect_reads_on_false] C19 is false: CONNECT ignores its announced length. Here it announces 0 bytes, and 13 more are read. [C19_puback_length3_false] C19 is false: a PUBACK of length 3 (legal: id and reason code) followed by another PUBACK eats the first bytes of that packet; the rest is then misread. [C19_ping_false] C19 is false: a PINGREQ leaves one of its two bytes behind. [C19_consumes_prefix_partial] C19: what holds for arbitrary bytes is that an accepted packet takes a non-empty prefix of the buffer and leaves the other bytes untouched and in order; for everything the encoders produce (the pings, AUTH and DISCONNECT with properties excepted) the prefix is exactly the packet. Missing: that the prefix is the announced one for arbitrary bytes, which is false (above)."
  },
  {
   "property": "C20",
   "status": "partial",
   "theorems": [
    "Mercurio.C20_aborts_iff",
    "Mercurio.C20_debug_stricter",
    "Mercurio.C20_client_debug_stricter",
    "Mercurio.C20_client_aborts_iff",
    "Mercurio.C20_abort_false",
    "Mercurio.C20_abort_debug_false",
    "Mercurio.C20_no_abort_partial",
    "Mercurio.C20_check_no_abort"
   ],
   "note": "Hostile bytes never crash the connection task. [C20_abort_false] C20 is false, in both build modes: these byte strings abort the task that reads them. [C20_abort_debug_false] C20 is false in a debug build also because of arithmetic: an over-long length field, and a PUBLISH that announces less than its topic takes. [C20_no_abort_partial] C20: in a release build CONNECT, PUBLISH, UNSUBSCRIBE, PINGREQ, PINGRESP and reserved packet types never abort the reader, whatever the bytes. Missing: the other packet types and debug builds, for which the claim is false (above)."
  },
  {
   "property": "C21",
   "status": "proved",
   "theorems": [
    "Mercurio.C21_version_table",
    "Mercurio.C21_other_versions_refused",
    "Mercurio.C21_accepted_version",
    "Mercurio.C21_level_byte"
   ],
   "note": "Protocol version negotiation is exact. [C21_version_table] C21: a version is recognised exactly for the pairs of the table, and the name and level a version announces lead back to it. [C21_other_versions_refused] C21: a CONNECT (any length field, any bytes after the level) whose name and level are not in the table is refused as \"unsupported protocol version\". [C21_accepted_version] C21: a CONNECT that is accepted has the version of its name and level. [C21_level_byte] C21: the level byte of a version stands for that version; a byte that is no level stands for MQTT 5; reason codes and AUTH exist in MQTT 5 only."
  },
  {
   "property": "C22",
   "status": "proved",
   "theorems": [
    "Mercurio.C22_publish_topic_iff",
    "Mercurio.C22_publish_topic_error"
   ],
   "note": "Publish topics are validated exactly. [C22_publish_topic_iff] C22: a topic name is accepted for publishing iff it is a valid topic name. [C22_publish_topic_error] The error reported for a refused topic name names the first rule broken."
  },
  {
   "property": "C23",
   "status": "proved",
   "theorems": [
    "Mercurio.C23_filter_iff",
    "Mercurio.C23_topic_is_filter"
   ],
   "note": "Topic filters are validated exactly. [C23_filter_iff] C23: a filter is accepted for subscribing iff it is a valid topic filter. [C23_topic_is_filter] Every topic name is also a filter, and matches exactly itself among valid topic names."
  },
  {
   "property": "C24",
   "status": "proved",
   "theorems": [
    "Mercurio.C24_routing",
    "Mercurio.C24_one"
   ],
   "note": "A message reaches exactly the subscriptions whose filter matches. [C24_routing] C24: after any history (`before`), a subscription receives, from everything that happens later (`after`: any mix of other clients' subscriptions and publications to valid topics), exactly the publications whose topic its filter matches, in order, once each. [C24_one] C24 for one publication: it is handed to the subscription iff the filter matches."
  },
  {
   "property": "C25",
   "status": "partial",
   "theorems": [
    "Mercurio.C25_one_copy",
    "Mercurio.C25_wildcard_topic_false",
    "Mercurio.C25_copies_double_false"
   ],
   "note": "A subscription never receives two copies of one publication. [C25_wildcard_topic_false] C25 fails without the validity of the topic: a publication to the topic \"+\" or \"#\" (which the will path does not exclude) is put twice into the channel of the subscription of the same name, whatever the tree. [C25_copies_double_false] The number of copies doubles with every level: n levels \"+\" give 2^n copies."
  },
  {
   "property": "C26",
   "status": "proved",
   "theorems": [
    "Mercurio.C26_agree",
    "Mercurio.C26_broker"
   ],
   "note": "Live routing and retained lookup use the same matching. [C26_agree] C26: with any stored data, any earlier operations on the tree, a valid filter and a valid topic: the retained lookup finds what is stored under the topic iff a live publication to the topic reaches a subscription with that filter. [C26_broker] C26 as seen through the broker: on a fresh broker, a retained publication is given to a later subscriber iff it would be given live to an earlier one."
  },
  {
   "property": "C27",
   "status": "proved",
   "theorems": [
    "Mercurio.C27_independent",
    "Mercurio.C27_add"
   ],
   "note": "Routing does not depend on other subscriptions or their order. [C27_independent] C27: what a subscription receives depends only on its filter and on what is published after it was made: not on earlier operations, nor on other subscriptions made before or afterwards. Holds for all topics, also invalid ones. [C27_add] C27: adding a subscription changes nothing for an existing one: neither what it has already been sent nor what it gets from the next publication."
  },
  {
   "property": "C28",
   "status": "proved",
   "theorems": [
    "Mercurio.C28_last_retained",
    "Mercurio.C28_unchanged"
   ],
   "note": "The retained message of a topic is the last retained publication. [C28_last_retained] C28: after any calls, subscribing to exactly a topic gives its retained message: the last publication to the topic with the retain flag if that one had a payload, otherwise nothing. [C28_unchanged] C28: a publication without the flag, or to another topic, changes no retained message."
  },
  {
   "property": "C29",
   "status": "proved",
   "theorems": [
    "Mercurio.C29_subscriber_gets_retained",
    "Mercurio.C29_marked"
   ],
   "note": "A new subscriber is given every matching retained message. [C29_subscriber_gets_retained] C29: after any calls, a new subscriber with a valid filter is given exactly one message for each topic that has a retained message and that the filter matches, and it is the retained publication itself: same topic, payload, QoS, with the retain flag. [C29_marked] C29: everything a new subscriber is given is marked as retained and has a payload."
  },
  {
   "property": "C30",
   "status": "proved",
   "theorems": [
    "Mercurio.C30_never_missed"
   ],
   "note": "A retained publication racing with a subscription is never missed. [C30_never_missed] C30: in every possible interleaving of the steps of any number of `publish` and `subscribe` calls, take a publication `p` of `m` to a valid topic `t` with the retain flag (storage step at time `i`, routing step at time `j`), and a subscription `q` with a valid matching filter `f` (tree step at time `k`, read step at time `l`). Then * the subscriber's channel was given `m`, or * among the storage steps up to the read there is a last one for topic `t` with the retain flag, it is `p`'s or a later one, and the subscriber was given that one's message as retained, unless it had an empty payload (which clears the topic)."
  },
  {
   "property": "C31",
   "status": "proved",
   "theorems": [
    "Mercurio.C31_account",
    "Mercurio.C31_in_order",
    "Mercurio.C31_complete",
    "Mercurio.C31_lag_iff"
   ],
   "note": "Subscription channels deliver in order, without duplicates, and lose only on overflow. [C31_account] C31: for every interleaving of sends and receives, what the reader got is a faithful account of the messages sent since it subscribed: in order, nothing invented, nothing twice, and nothing missing except what was reported as lag. [C31_in_order] C31: the reader gets a subsequence, in order, of the messages sent since it subscribed. [C31_complete] C31: without a report of lag nothing is lost: what was got and what is still unread are together exactly what was sent. [C31_lag_iff] C31: lag is reported exactly when the reader is more than 16 messages behind, and then the 16 newest are kept."
  },
  {
   "property": "C32",
   "status": "proved",
   "theorems": [
    "Mercurio.C32_session",
    "Mercurio.C32_will",
    "Mercurio.C32_inflight",
    "Mercurio.C32_all_inflight",
    "Mercurio.C32_list_sessions",
    "Mercurio.C32_retained"
   ],
   "note": "Stored session data is a per-client map. [C32_session] C32 (sessions): after any operations, loading a session gives the one last saved for that client and not deleted since. [C32_will] C32 (wills). [C32_inflight] C32 (in-flight messages by packet id). [C32_all_inflight] C32 (all in-flight messages of a client): exactly the stored ones, one per packet id. [C32_list_sessions] C32 (listing sessions): every client with a stored session, once. [C32_retained] C32 (retained messages): after any operations, a lookup gives one message for each topic that has a stored message and that the filter matches: the stored one, marked as retained."
  },
  {
   "property": "C33",
   "status": "partial",
   "theorems": [
    "Mercurio.C33_same_answers_partial",
    "Mercurio.C33_comma_false",
    "Mercurio.C33_comma_general_false",
    "Mercurio.C33_packet_id_false"
   ],
   "note": "SQLite and in-memory storage are interchangeable. [C33_same_answers_partial] C33, with the stated provisos (`Regular`: no comma in stored filters, list not the single empty string, records carry their key): after any regular history, every operation gets the same answer from both back ends, up to the order of lists and the packet ids of retained messages. [C33_comma_false] C33 fails for a filter with a comma, a legal filter: the SQLite store loads it as two. [C33_comma_general_false] In general the SQLite store gives back the filters cut at every comma, so any client whose filters contain one loses its subscriptions on restart. [C33_packet_id_false] C33 fails for the packet id of a retained message: only the in-memory store keeps it."
  },
  {
   "property": "C34",
   "status": "proved",
   "theorems": [
    "Mercurio.C34_answers",
    "Mercurio.C34_server_packets_refused"
   ],
   "note": "Each inbound packet gets exactly its protocol response. [C34_answers] C34: on an open connection every packet except AUTH (see C48) either is one a client may send, then the connection stays open and the packets sent back are its answer; or the connection ends and nothing is sent back. [C34_server_packets_refused] The packets only a server may send, and a second CONNECT, are not accepted."
  },
  {
   "property": "C35",
   "status": "proved",
   "theorems": [
    "Mercurio.C35_publications",
    "Mercurio.C35_invalid_topic",
    "Mercurio.C35_valid_topic"
   ],
   "note": "Only validated topics are routed. [C35_publications] In every history, every publication that a client brought to the broker comes from a PUBLISH packet on a connection that was open at that moment, its topic is a legal topic name, and the message carries the packet's fields. [C35_invalid_topic] C35: a PUBLISH to an invalid topic ends the connection, is not answered, and (unless the connection has a will to publish) leaves broker and storage as they were. [C35_valid_topic] C35: a PUBLISH to a valid topic is routed exactly once, as it is, under its topic."
  },
  {
   "property": "C36",
   "status": "partial",
   "theorems": [
    "Mercurio.C36_routed_on_arrival_partial",
    "Mercurio.C36_retransmission_routed_again_false"
   ],
   "note": "QoS 2 publications are delivered exactly once. [C36_routed_on_arrival_partial] C36, what holds: a QoS 2 PUBLISH is routed when it arrives, and answered with PUBREC. Missing: a retransmission before PUBREL must not be routed again; see the next theorem. [C36_retransmission_routed_again_false] C36 is false in every state: the same QoS 2 PUBLISH sent again (same packet identifier, marked as duplicate, before any PUBREL) is routed again."
  },
  {
   "property": "C37",
   "status": "proved",
   "theorems": [
    "Mercurio.C37_subscribe"
   ],
   "note": "SUBACK answers each filter in order and the subscription set changes accordingly. [C37_subscribe] C37: SUBSCRIBE is answered by one SUBACK with the packet identifier and one code per filter in order; the session is then subscribed to the filters it had and the valid ones requested; each of these gets a subscription that starts with the messages retained now and misses nothing from now on; the others keep the subscription they had."
  },
  {
   "property": "C38",
   "status": "proved",
   "theorems": [
    "Mercurio.C38_unsubscribe",
    "Mercurio.C38_codes"
   ],
   "note": "UNSUBACK answers each filter in order and removes exactly those. [C38_unsubscribe] C38: UNSUBSCRIBE is answered by one UNSUBACK with the packet identifier and one code per filter in order, success exactly if the session was subscribed to it at that point; afterwards exactly the named filters are gone and the others keep their subscription. [C38_codes] C38: every code is success or \"no subscription existed\"."
  },
  {
   "property": "C39",
   "status": "partial",
   "theorems": [
    "Mercurio.C39_mailbox",
    "Mercurio.C39_restart",
    "Mercurio.C39_saved",
    "Mercurio.C39_resume_forgets_false"
   ],
   "note": "Persisted subscriptions equal live ones. [C39_resume_forgets_false] C39 is false after a reconnect that resumes the session in memory: the stored filter list is replaced by an empty one, although the session keeps its subscriptions."
  },
  {
   "property": "C40",
   "status": "partial",
   "theorems": [
    "Mercurio.C40_content_partial",
    "Mercurio.C40_topic_partial",
    "Mercurio.C40_wildcard_false"
   ],
   "note": "Subscribers are told the topic that was published to. [C40_content_partial] C40: after every history, every packet a client is sent for a filter `f` comes from an earlier publication to a topic `f` matches, and has its payload, its QoS, its duplicate flag and its packet identifier. (Missing: the topic, see below.) [C40_topic_partial] C40 for filters without wildcards: the packet names the topic that was published to. [C40_wildcard_false] C40 is false for filters with wildcards: the topic field of every packet sent for such a filter is the filter, which is never the topic of the publication if that one was a legal topic name."
  },
  {
   "property": "C41",
   "status": "proved",
   "theorems": [
    "Mercurio.C41_stored",
    "Mercurio.C41_resent",
    "Mercurio.C41_only_from_storage"
   ],
   "note": "In-flight messages are kept until acknowledged and resent after a restart. [C41_stored] C41: after every history (restarts included) the storage holds, for every client and packet identifier, exactly the message last sent to the client under that identifier with QoS 1 or 2 if the client has not acknowledged it by PUBACK or PUBCOMP since. [C41_resent] C41: after every history, a client that resumes its session from storage (no clean start, no session in memory, a stored one) is sent, after the CONNACK, exactly its unacknowledged messages: each once, with its QoS, topic, payload and packet identifier, marked as duplicate. [C41_only_from_storage] In all other cases nothing is sent again: in particular not when the session is resumed from memory."
  },
  {
   "property": "C42",
   "status": "partial",
   "theorems": [
    "Mercurio.C42_will_partial",
    "Mercurio.C42_no_will_partial",
    "Mercurio.C42_same_id_false",
    "Mercurio.C42_stored_will_false",
    "Mercurio.C42_panic_false",
    "Mercurio.C42_disconnect_with_will_false"
   ],
   "note": "The will is published exactly when the connection ends without DISCONNECT. [C42_will_partial] Client `p.payload.clientId` connects with a will, nobody else is connected with or connects with the same identifier, no older will of the client is stored, and the server neither restarts nor crashes. Then * as long as the connection is open, its will is not published; * when event `e` ends it, the will is published exactly once, with the topic, payload, QoS and retain flag of the CONNECT \u2014 unless `e` is a DISCONNECT packet, in which case it is not published; * afterwards it is never published again. Missing from C42: the cases excluded by the hypotheses, see the theorems below. [C42_no_will_partial] Under the same conditions a client that connects without a will publishes none. [C42_same_id_false] C42 is false when two connections use the same client identifier: the session's will is replaced by the second CONNECT. Here the second client has no will, and then the will of the first one is not published when its connection breaks. [C42_stored_will_false] C42 is false for a client whose session is resumed from storage (after a restart, with a storage back end that survives it): a will stored earlier is taken over even if the new CONNECT has none. [C42_panic_false] C42 is false when the task of the connection panics: the connection ends, and the will is not published. [C42_disconnect_with_will_false] DISCONNECT with any reason removes the will, also with the MQTT 5 reason \"disconnect with will message\" (0x04), which asks for it to be published."
  },
  {
   "property": "C43",
   "status": "partial",
   "theorems": [
    "Mercurio.C43_clean_start",
    "Mercurio.C43_inflight_kept_false"
   ],
   "note": "Clean start discards the previous session. [C43_inflight_kept_false] C43 is false for messages in flight: a clean start leaves all stored ones in place."
  },
  {
   "property": "C44",
   "status": "proved",
   "theorems": [
    "Mercurio.C44_came_before",
    "Mercurio.C44_session_present"
   ],
   "note": "Session-present is truthful. [C44_came_before] C44 over whole histories (restarts included): if the CONNACKs of the history could be written and the server never generated this identifier, an admitted client with a non-empty identifier is told session present iff it did not ask for a clean start and was connected under this identifier before. [C44_session_present] C44: an admitted client is sent a CONNACK with success, which reports session present iff the client did not ask for a clean start and a session of that client identifier exists in memory or in storage; an assigned identifier is reported to MQTT 5 clients that sent none."
  },
  {
   "property": "C45",
   "status": "partial",
   "theorems": [
    "Mercurio.C45_clientOf",
    "Mercurio.C45_isolated_partial",
    "Mercurio.C45_empty_ids_false"
   ],
   "note": "Clients never share a session unless they use the same client id. [C45_isolated_partial] Two open connections whose clients gave different identifiers work on different sessions: nothing that happens on one of them (packets, deliveries, its end) changes what the session of the other one contains. Missing from C45: clients that give the empty identifier share a session (`C45_empty_ids_false`). [C45_empty_ids_false] C45 is false for empty identifiers: after two clients connected with an empty identifier (the second one without clean start), both connections work on the same session, although each was told an identifier of its own."
  },
  {
   "property": "C46",
   "status": "proved",
   "theorems": [
    "Mercurio.C46_open_connections",
    "Mercurio.C46_first_packet",
    "Mercurio.C46_not_open"
   ],
   "note": "Nothing happens before CONNECT. [C46_open_connections] In every history, a connection that is open got a CONNECT as its first packet whose CONNACK was written. [C46_first_packet] C46: a first packet that is not CONNECT changes nothing and is not answered, and the connection is not opened. [C46_not_open] C46: whatever arrives on a connection that is not open changes nothing and is not answered."
  },
  {
   "property": "C47",
   "status": "proved",
   "theorems": [
    "Mercurio.C47_open_connections",
    "Mercurio.C47_refused",
    "Mercurio.C47_no_validator",
    "Mercurio.C47_accepted"
   ],
   "note": "With authentication required, no session without accepted credentials. [C47_open_connections] In every history of a server that requires authentication, a connection that is open presented credentials that the configured validator accepts. [C47_refused] C47: if authentication is required and the CONNECT does not carry a user name and a password that a configured validator accepts, the only effect is the refusal. [C47_no_validator] C47: with authentication required and no validator everyone is refused. [C47_accepted] C47: accepted credentials give the same session as a server without authentication."
  },
  {
   "property": "C48",
   "status": "partial",
   "theorems": [
    "Mercurio.C48_manager",
    "Mercurio.C48_exchange",
    "Mercurio.C48_no_replay",
    "Mercurio.C48_success",
    "Mercurio.C48_refused",
    "Mercurio.C48_other_method_false",
    "Mercurio.C48_failed_start_false"
   ],
   "note": "Re-authentication cannot be skipped or replayed. [C48_other_method_false] C48, \"with the same method\", is false: the method named in a continuation is ignored. [C48_failed_start_false] C48, \"an exchange is in progress\", is false: a start that the method refuses leaves the session (which the next connection of the client resumes) in the middle of an exchange."
  },
  {
   "property": "C49",
   "status": "proved",
   "theorems": [
    "Mercurio.C49_plain_accepts",
    "Mercurio.C49_single_step",
    "Mercurio.C49_refusals",
    "Mercurio.C49_auth_packet"
   ],
   "note": "PLAIN accepts exactly the configured credentials. [C49_plain_accepts] C49: PLAIN accepts the data of an AUTH packet iff it is a NUL, a user name, a NUL and a password, both valid UTF-8, and this password is the one configured for the user. (The user name ends at the first NUL after the leading one.) [C49_single_step] C49: it never asks for another round, and refuses every continuation. [C49_refusals] C49: the reasons of refusal: no data; data of another shape; wrong credentials. [C49_auth_packet] C49 on the wire: on an open connection of a server whose authentication manager offers PLAIN over a credential table, a re-authentication with method PLAIN is answered with success iff its data carries a configured user name and password."
  },
  {
   "property": "C50",
   "status": "partial",
   "theorems": [
    "Mercurio.C50_kept_open",
    "Mercurio.C50_closed_when_idle",
    "Mercurio.C50_closed_when_silent",
    "Mercurio.C50_closed_only_when_idle",
    "Mercurio.C50_zero_false",
    "Mercurio.C50_zero_silent_partial"
   ],
   "note": "Keep-alive closes idle connections and only those. [C50_zero_false] C50 for keep-alive 0, which should mean \"never\": false. The first packet after the handshake makes the deadline overflow and the connection's task panic, on every machine whose monotonic clock has reached one second. [C50_zero_silent_partial] C50 for keep-alive 0, if no packet follows the handshake: the connection stays open for thirty years."
  },
  {
   "property": "C51",
   "status": "partial",
   "theorems": [
    "Mercurio.C51_pings_ignored_false",
    "Mercurio.C51_pings_keep_alive_partial",
    "Mercurio.C51_one_second",
    "Mercurio.C51_ping_times",
    "Mercurio.C51_disconnected_false"
   ],
   "note": "The built-in client's pings keep its connection alive. [C51_pings_ignored_false] C51 is false, always: of any number of pings, arriving in any way, the server finds only the first, and closes the connection \u230a1.5 k\u230b seconds after it. `l` are the packets the server's loop finds. [C51_pings_keep_alive_partial] C51: a client with keep-alive `k \u2265 2` that sends PINGREQs on its timer is never timed out, at any time `now`, whatever else it sends. `start` is when the server's timer started and `c0` when the client's did (after the CONNACK); every ping is picked up by the server less than `\u03b4` after the client's timer ticks, where the delay of the CONNACK and `\u03b4` together are at most `k` seconds. Missing: that the server does pick up the pings; it does not, see `C51_pings_ignored_false`. [C51_disconnected_false] C51 is false of the server with a clock: of a client that has sent its first PINGREQ (after any packets, and followed by anything, for instance a PINGREQ every second) the server takes no packet any more, and when one and a half times its keep-alive have passed since then, and however late the runtime attends to timers, it is not connected any more."
  },
  {
   "property": "C52",
   "status": "proved",
   "theorems": [
    "Mercurio.C52_survives",
    "Mercurio.C52_eight_in_a_row",
    "Mercurio.C52_next",
    "Mercurio.C52_stopped"
   ],
   "note": "Accept failures are retried with bounded exponential backoff. [C52_survives] C52: the listener is still running after a sequence of accept outcomes iff no eight failures came in a row. [C52_eight_in_a_row] C52, in terms of runs: eight failures in a row stop it, wherever they are. [C52_next] C52: what happens at the next outcome. After `n` failures since the last success: a success is handled; a failure makes the listener sleep `2^n` seconds, or stop if it is the eighth. [C52_stopped] C52: once stopped, nothing more is accepted."
  },
  {
   "property": "C53",
   "status": "proved",
   "theorems": [
    "Mercurio.C53_simple",
    "Mercurio.C53_hashed",
    "Mercurio.C53_connect"
   ],
   "note": "Credential validation is exact. [C53_simple] C53: the simple validator accepts a user name and password iff this password is configured for the user. (Configured passwords are strings, hence valid UTF-8.) [C53_hashed] C53: the validator of the daemon accepts a user name and password iff the user is in the table and its entry, if it starts with a dollar sign, is a hash that verifies the password, and otherwise is the password. [C53_connect] C53 at the front door: a server that requires authentication against a table of passwords opens a connection for a CONNECT iff it carries a user name and the password configured for it."
  },
  {
   "property": "C54",
   "status": "proved",
   "theorems": [
    "Mercurio.C54_read_back",
    "Mercurio.C54_loaded",
    "Mercurio.C54_rewrite",
    "Mercurio.C54_colon_needed",
    "Mercurio.C54_meaning",
    "Mercurio.C54_refused"
   ],
   "note": "The password file is read back as written. [C54_read_back] C54: a table of users whose names and hashes fit a line is read back from the file it is written to, in whatever order the entries are written. [C54_loaded] C54: the conditions are exactly what a file can hold: whatever the file, every user and hash read from it fits a line. [C54_rewrite] C54: so rewriting a file that was read successfully never changes a user. [C54_colon_needed] C54, why the conditions are there: a name with a colon is read back as another name. [C54_meaning] C54, for files written by hand: in a file that is read, user `u` has password or hash `h` iff the last line for `u` reads `u:h`. [C54_refused] C54: a file is refused iff some line is neither empty nor a comment nor of the form `user:hash`."
  },
  {
   "property": "C55",
   "status": "partial",
   "theorems": [
    "Mercurio.C55_add",
    "Mercurio.C55_add_first",
    "Mercurio.C55_delete",
    "Mercurio.C55_refused",
    "Mercurio.C55_malformed_false",
    "Mercurio.C55_line_feed_false"
   ],
   "note": "Managing one user leaves the others alone. [C55_malformed_false] C55 is false if the file cannot be read (one malformed line, or not UTF-8): adding a user then loses all others. [C55_line_feed_false] C55 is false for names with a line feed: the file can then no longer be read at all (here the part before the line feed is not blank, not a comment and has no colon)."
  },
  {
   "property": "C56",
   "status": "proved",
   "theorems": [
    "Mercurio.C56_connect",
    "Mercurio.C56_session",
    "Mercurio.C56_not_connected"
   ],
   "note": "The client's CONNECT says what the options said. [C56_connect] C56: for all options that MQTT can carry, the client has bytes to send, and the server, in whatever chunks these bytes arrive, reads from them exactly one packet, a CONNECT that says what the options say. [C56_session] C56: the session a server opens for that CONNECT (clean start) belongs to the client id of the options (or the generated one if there is none) and holds exactly the will of the options; whether it is opened depends on exactly the credentials of the options. If the CONNACK of the server reaches the client, the client is connected, with that client id (the generated one is only told in MQTT 5). [C56_not_connected] C56: a refusal, a wrong packet, the end of the stream or no answer never count as connected: `connect` returns an error that tells which it was."
  },
  {
   "property": "C57",
   "status": "partial",
   "theorems": [
    "Mercurio.C57_distinct",
    "Mercurio.C57_numbering",
    "Mercurio.C57_nonzero_partial",
    "Mercurio.C57_zero_false"
   ],
   "note": "The client numbers its packets safely. [C57_nonzero_partial] C57: within the first 65535 turns of a client, identifier 0 (which MQTT forbids) is not used. Missing, and false (`C57_zero_false`): that it is never used. [C57_zero_false] C57 is false: the 65536th call that takes an identifier is sent with identifier 0."
  },
  {
   "property": "C58",
   "status": "partial",
   "theorems": [
    "Mercurio.C58_whole_packets_partial",
    "Mercurio.C58_payload_cut_false",
    "Mercurio.C58_ping_cut_false",
    "Mercurio.C58_large_message_false",
    "Mercurio.C58_reads_all_iff",
    "Mercurio.C58_bad_cut_loses",
    "Mercurio.C58_suback_cut_false",
    "Mercurio.C58_connack_cut_false",
    "Mercurio.C58_rounds"
   ],
   "note": "The client reads the packets that were sent however the network splits them. [C58_whole_packets_partial] C58: if no read of the socket ends inside a packet, the client reads exactly the packets that were sent, then sees the end of the stream. Missing, and false (`C58_payload_cut_false`, `C58_ping_cut_false`): the same when a read ends inside a packet. [C58_payload_cut_false] C58 is false: if a read ends inside the payload of a PUBLISH, the client takes the packet for malformed, whatever arrives later. [C58_ping_cut_false] C58 is false: a read that returns only the first byte of a PINGRESP makes the client's task panic. [C58_large_message_false] C58 is false for every message that does not fit into one read of the client's 4096 byte buffer: the topic and the properties do, the payload does not. The first read returns at most 4096 bytes, so the client never receives such a message. [C58_suback_cut_false] C58 is false: a SUBACK of which all but the last reason code has arrived is taken (in a release build) for one without any reason code, and the last one for the beginning of another packet. [C58_connack_cut_false] C58 is false: a CONNACK of which the first two or three bytes have arrived stops the client."
  },
  {
   "property": "C59",
   "status": "proved",
   "theorems": [
    "Mercurio.C59_publish",
    "Mercurio.C59_seen_iff_acknowledged",
    "Mercurio.C59_all_messages",
    "Mercurio.C59_qos2_unanswered"
   ],
   "note": "The client acknowledges what it receives. [C59_publish] C59: a PUBLISH read by a running client whose event channel has room (and whose socket takes what is written) gives exactly one event, the message with the same topic, payload, QoS and retain flag, after all earlier events; PUBACK with the same identifier is written exactly for QoS 1. [C59_seen_iff_acknowledged] C59: whether or not the socket takes what is written, the application gets a QoS 1 message exactly if it has been acknowledged: if the PUBACK cannot be written, the message is dropped (and the server still has it). [C59_all_messages] C59: over any length of time on a connection that stays up, the application gets, in order and each once, exactly the messages of the PUBLISH packets that arrived (those not yet taken are still pending), and the PUBACKs sent are exactly those due for the QoS 1 messages, in order. [C59_qos2_unanswered] C59: a QoS 2 message is never acknowledged: the client answers neither the PUBLISH nor the PUBREL."
  },
  {
   "property": "C60",
   "status": "proved",
   "theorems": [
    "Mercurio.C60_publish"
   ],
   "note": "A published message reaches the broker's router unchanged. [C60_publish] C60: a publish call on a running client, for a topic MQTT allows and a message within the size limit of MQTT, writes one PUBLISH. The server reads exactly one packet from its bytes, in whatever chunks they arrive, and on an open connection publishes, under the same topic, a message with that topic, payload, QoS and retain flag, and with the packet id the call returned."
  },
  {
   "property": "C61",
   "status": "proved",
   "theorems": [
    "Mercurio.C61_login",
    "Mercurio.C61_deleted",
    "Mercurio.C61_no_start"
   ],
   "note": "A user managed with the passwd command can log in, and only that user is affected. [C61_login] C61: after `mercuriod passwd` has added or updated a user, the daemon started with that file requires authentication, accepts for this user exactly the passwords that verify against the new hash, and decides as before about everybody else. [C61_deleted] C61: after `mercuriod passwd -d` the daemon refuses the user, whatever the password, and decides as before about everybody else. [C61_no_start] C61: the daemon with authentication enabled does not start on a file it cannot read in full."
  },
  {
   "property": "C62",
   "status": "proved",
   "theorems": [
    "Mercurio.C62_exactly_matching"
   ],
   "note": "A subscriber is sent exactly the matching publications, in order. [C62_exactly_matching] C62: a client with an open connection `c` subscribes to a valid filter `f`. In every later history that leaves the subscription in place (and in which all published topics are valid), the packets it is sent for `f` are, in order and without repetition, messages from this list: first the retained messages of the topics `f` matches, one per topic, as they were when it subscribed; then the publications since, of any client or will, whose topic `f` matches, in the order the broker accepted them. If it keeps up (never more than 16 of them waiting), none is skipped, and when there is nothing more to send it has been sent all of them."
  },
  {
   "property": "C63",
   "status": "proved",
   "theorems": [
    "Mercurio.C63_bytes_to_packets"
   ],
   "note": "Byte streams behave as the packets in them. [C63_bytes_to_packets] C63: whatever has happened on all connections, in whatever chunks the bytes arrived, there is a history `es` of packets that explains the state of the server and everything any client has seen. The bytes written to a client are the encodings, one after the other, of the packets sent to it in that history (up to a packet the encoder fails on, which ends the connection). If the bytes received from a client so far are the beginning of the encodings of packets `ps` (pings, AUTH and DISCONNECT with properties excluded by `Sent`), then exactly the first `k` of them, in order and as they were sent, are the packets of this client in that history; and once the connection has nothing left to do while it is open, these are all packets that have arrived completely."
  },
  {
   "property": "C64",
   "status": "proved",
   "theorems": [
    "Mercurio.C64_hostile_peers",
    "Mercurio.C64_hostile_peer"
   ],
   "note": "A hostile peer cannot disturb the other connections. [C64_hostile_peers] C64: however many other peers do whatever they like for however long, a connection stays as it is: the same bytes are buffered and have been written, it stays open (or closed) with the same client, and its session is unchanged if none of them gives, or is about to give in its CONNECT, the identifier of its client. [C64_hostile_peer] C64: whatever the peer of connection `c` does - any bytes at all, in any chunks, malformed, truncated, or such that its handler panics - the other connections stay as they are: the same bytes are buffered and have been written, they stay open (or closed) with the same client, and the session of such a client is unchanged, unless the client of `c` gives, or is about to give in its CONNECT, the same client identifier."
  },
  {
   "property": "C65",
   "status": "proved",
   "theorems": [
    "Mercurio.C65_new_client"
   ],
   "note": "A new client is always let in. [C65_new_client] C65: a new client gets in whatever the other connections have done before and do in the meantime, and however its bytes are cut into chunks: if the only thing that happens on connection `c` is that the peer connects and sends the bytes of a CONNECT with a clean start, a client identifier and, if needed, accepted credentials, then what it reads is exactly the CONNACK that welcomes it, and its connection is open under its identifier. (In the model, where the handlers do not wait for each other's locks; see C66 for what the locks add.)"
  },
  {
   "property": "C66",
   "status": "partial",
   "theorems": [
    "Mercurio.C66_answered_partial",
    "Mercurio.C66_own_sessions_partial",
    "Mercurio.C66_unsubscribed_partial",
    "Mercurio.C66_same_session_false",
    "Mercurio.C66_blocked_false"
   ],
   "note": "A CONNECT is answered without waiting for other clients. [C66_answered_partial] Part of C66: from any reachable state, the runtime comes to rest after a bounded number of actions of its own; when none that helps a client is left, every CONNECT has been answered and nobody has anything to wait for, unless two connections use one session. Missing: CONNECTs for a session in use, and those that wait behind them, see `C66_blocked_false`. [C66_own_sessions_partial] Part of C66: in a run in which only clean starts repeat a client identifier, no two connections ever use the same session, so whenever the runtime has come to rest every CONNECT is answered. [C66_unsubscribed_partial] Part of C66: once the last subscription of a session is gone (and as long as none is added again), a CONNECT for that session does not have to wait either, though another connection uses it: whatever happens, no connection holds the lock of the session while it waits. [C66_same_session_false] C66 fails, whatever the history: while connection `a` waits for a message in the session known under `id`, a CONNECT for `id` without clean start arrives on connection `b` and takes the lock of all sessions. From then on, as long as nothing happens on connection `a`, whatever all other clients do, neither this CONNECT is answered, nor any that was waiting, nor any that arrives on a new connection. [C66_blocked_false] C66 fails: there is a reachable state from which, as long as nothing happens on one idle connection, no CONNECT of anybody is answered any more, whatever all clients do."
  },
  {
   "property": "C67",
   "status": "partial",
   "theorems": [
    "Mercurio.C67_accepted_legal_partial",
    "Mercurio.C67_illegal_accepted_false"
   ],
   "note": "Only legal packets are acted on. [C67_accepted_legal_partial] C67 (partial): whatever bytes arrive, a packet the parser hands on is of the type the first byte says, and all its fields have legal values; for PUBLISH, DISCONNECT and AUTH the flags in the first byte are legal and (for PUBLISH) mean what the packet says. Missing, because it is false: the flags of the other packets are not looked at, SUBSCRIBE and UNSUBSCRIBE may come without entries, and packet identifiers may be zero (see `C67_illegal_accepted_false`). [C67_illegal_accepted_false] C67 is false in full: these illegal packets are accepted. A PUBREL whose first byte is 0x60, not 0x62; a SUBSCRIBE without entries (when a byte of the next packet has already arrived); a PUBLISH with QoS 1 and packet identifier 0; a CONNECT without a will but with will QoS and will retain bits."
  },
  {
   "property": "C68",
   "status": "proved",
   "theorems": [
    "Mercurio.C68_encrypts",
    "Mercurio.C68_no_files",
    "Mercurio.C68_serves_iff"
   ],
   "note": "A daemon told to encrypt never speaks in the clear. [C68_encrypts] C68: a daemon whose settings ask for TLS, if it serves at all, hands no connection to the broker except over an encrypted stream after a handshake in which it shows the certificates of the configured file with the first key of the configured key file, and, if a CA file is configured, demands a certificate of the peer and checks it against the certificates in that file. [C68_no_files] C68: asked for TLS without a certificate or a key file, or with a file that has none, the daemon does not serve. [C68_serves_iff] C68: asked for TLS, the daemon serves only if the files are usable; and then it does, if nothing else is in the way."
  },
  {
   "property": "C69",
   "status": "proved",
   "theorems": [
    "Mercurio.C69_users_only",
    "Mercurio.C69_users_admitted",
    "Mercurio.C69_no_file",
    "Mercurio.C69_no_users",
    "Mercurio.C69_serves_iff"
   ],
   "note": "A daemon told to authenticate admits only users of its password file. [C69_users_only] C69: a daemon whose settings ask for authentication has, after any history, only connections whose CONNECT gave a user that the password file lists, with the right password. [C69_users_admitted] C69: and a CONNECT with a listed user and the right password is let in. [C69_no_file] C69: asked for authentication with a password file that cannot be read or has a malformed line, the daemon does not serve. [C69_no_users] C69: without a password file nobody is let in. [C69_serves_iff] C69: asked for authentication, the daemon serves only if the password file, if there is one, is usable; and then it does, if nothing else is in the way."
  },
  {
   "property": "C70",
   "status": "partial",
   "theorems": [
    "Mercurio.C70_settings_partial",
    "Mercurio.C70_only_given_settings",
    "Mercurio.C70_allow_anonymous_false",
    "Mercurio.C70_max_connections_false",
    "Mercurio.C70_serves_iff"
   ],
   "note": "Every setting of the daemon has its documented effect. [C70_settings_partial] Part of C70: the daemon listens where the `--listen` argument says, otherwise at the configured host and port, otherwise at 127.0.0.1:1883; without `tls.enabled = true` it speaks plain TCP, and without `auth.enabled = true` it asks nobody for a password, whatever password file is configured. Missing, and false (below): `allow_anonymous` and `max_connections`. [C70_allow_anonymous_false] C70 is false for `allow_anonymous` (\"Allow anonymous connections (when auth is enabled)\"): with authentication enabled, whatever `allow_anonymous` says, a CONNECT without user name is refused. [C70_max_connections_false] C70 is false for `max_connections` (\"Maximum number of concurrent connections\"): whatever number is configured, a daemon without authentication has more connections open when that many clients come."
  },
  {
   "property": "C71",
   "status": "partial",
   "theorems": [
    "Mercurio.C71_tls_partial",
    "Mercurio.C71_cafile_alone_false"
   ],
   "note": "The command line tool encrypts when given TLS options. [C71_tls_partial] Part of C71: called with `--tls`, the tool hands nothing to a plain stream; unless `--insecure` is given, it hands its CONNECT over only after a handshake that checks the server's certificate, against the certificates of the `--cafile`, if there is one, and otherwise against the built-in roots. [C71_cafile_alone_false] C71 is false without `--tls`: a CA file alone does not turn encryption on, so CONNECT, with user name and password, is handed to a plain stream as soon as the server is reached."
  },
  {
   "property": "C72",
   "status": "partial",
   "theorems": [
    "Mercurio.C72_read_as_written_partial",
    "Mercurio.C72_length_false",
    "Mercurio.C72_swallowed_false"
   ],
   "note": "Packets are read exactly as written. [C72_read_as_written_partial] C72 (partial): if the parser hands on a packet, then the buffer begins with bytes that say exactly this packet, according to the grammar in Spec/Grammar.lean, and these bytes and no others are taken. Missing, because it is false: the length in the packet is not always that of its bytes (see `C72_length_false` and `C72_swallowed_false`), and of a ping only the first byte is taken. [C72_length_false] C72 is false in full: the length announced in a CONNECT is not looked at. Whatever length is given, a CONNECT is read to its end. [C72_swallowed_false] C72 is false in full: a PUBLISH (of length 9, to topic `a`, payload `h`) with two subscription identifiers, followed by a PINGREQ. The PINGREQ becomes part of the payload."
  },
  {
   "property": "C73",
   "status": "partial",
   "theorems": [
    "Mercurio.C73_accepted_partial",
    "Mercurio.C73_legal_refused_false"
   ],
   "note": "Every packet the grammar allows is accepted and understood, whatever follows. [C73_accepted_partial] C73 (partial): a packet that the grammar allows is accepted and understood, whatever follows it, and exactly its bytes are taken: properties in any order, for the packets other than PUBLISH also numbers not in their shortest form. Missing, because it is false: pings, and what the grammar itself leaves out (see `C73_legal_refused_false`). (The length limit is that of `u32`, to which the server cuts buffer lengths.) [C73_legal_refused_false] C73 is false in full. These legal packets are refused: a PUBACK with a reason and without property length, an AUTH of length 0. Of a PINGREQ a byte is left over. The Request Response Information of a CONNECT is taken for Request Problem Information."
  },
  {
   "property": "C74",
   "status": "proved",
   "theorems": [
    "Mercurio.C74_application_to_application"
   ],
   "note": "Messages get from application to application. [C74_application_to_application] C74: any number of built-in clients, connected to the server by byte streams. At one time (after `evs1`) nothing is in transit on the connection of client `c`, whose application has subscribed to the valid filter `f`. Later (after `evs2`) the connection is still up, the application has not changed that subscription, and no other client shares its session: clients with the same client identifier, which all clients that give none have, start clean. Then what the application of `c` got for `f` in between is, in order and without repetition, taken from the messages that applications published in between on topics `f` matches: with their payload and QoS, in an order `L` that is the same for all subscribers and contains the messages of each application in the order of its calls. If no more than 16 matching messages were published, they arrive without a gap, and all of them have arrived once nothing is in transit to the client any more."
  },
  {
   "property": "C75",
   "status": "partial",
   "theorems": [
    "Mercurio.C75_stays_connected_partial",
    "Mercurio.C75_keep_alive_zero_false",
    "Mercurio.C75_deaf_after_ping_false"
   ],
   "note": "A connected client stays connected and is listened to. [C75_stays_connected_partial] C75: a built-in client `c` that is connected, with nothing in transit to the server, stays connected during everything that happens afterwards, as long as nothing ends its connection on purpose: its application does not call `disconnect` or publish to an invalid topic, its socket does not fail, and the server does not give it up (keep-alive timeout, shutdown, I/O error). Whatever other clients and their applications do, pings included, does not matter, except that none shares its session. Missing: the ticks of the client's own ping timer (`Harmless` excludes them), and clients with keep-alive 0; with them the claim is false, see `C75_deaf_after_ping_false` and `C75_keep_alive_zero_false`. [C75_keep_alive_zero_false] C75 is false for every client that connected with keep-alive 0, always: as long as its connection is up, with nothing in transit to the server, its application has published nothing and is subscribed to nothing. Whatever the client sends after CONNECT, the server acts on it and then drops the connection. [C75_deaf_after_ping_false] C75 is false as soon as the client's ping timer ticks, always: after any history, if a connected client with nothing in transit to the server and no events waiting for its application pings once and the server acts on it, then whatever happens afterwards (`evs` is arbitrary), no message this client publishes reaches the broker any more, although its `publish` calls return normally."
  },
  {
   "property": "C76",
   "status": "partial",
   "theorems": [
    "Mercurio.C76_read_partial",
    "Mercurio.C76_publish_false",
    "Mercurio.C76_publish_zero_false",
    "Mercurio.C76_subscribe_false",
    "Mercurio.C76_answers_partial",
    "Mercurio.C76_message_false",
    "Mercurio.C76_refused_filter_false"
   ],
   "note": "Clients of MQTT 3.1 and 3.1.1 are served. [C76_read_partial] C76 (partial): a CONNECT of version 3.1 or 3.1.1 is understood, and so are acknowledgements and DISCONNECT, whatever follows them. Missing, because it is false: everything else. [C76_publish_false] C76 is false for PUBLISH: no publication of a 3.1.1 client is ever understood, whatever its topic, payload and QoS, and whatever follows (the beginning of the payload is taken for MQTT 5 properties). [C76_publish_zero_false] What is read instead: if the payload begins with a zero byte, the rest of it; an empty payload is refused. [C76_subscribe_false] C76 is false for SUBSCRIBE and UNSUBSCRIBE: those of up to 256 bytes are refused as malformed, whatever the filters, so that the connection is closed. [C76_answers_partial] C76 (partial): a client of version 3.1 or 3.1.1 is answered in its own version: the CONNACK (of an admitted or a refused client) and the answers to packets after it are legal 3.1.1 packets that say what the server means. Missing, because it is false: messages, and SUBACKs for filters that are refused. [C76_message_false] C76 is false for the messages sent to a client: the packet it is sent says, in its version, a payload with one more byte in front of the one published. [C76_refused_filter_false] C76 is false for filters that are refused: the SUBACK says a code that 3.1.1 does not have."
  },
  {
   "property": "C77",
   "status": "partial",
   "theorems": [
    "Mercurio.C77_options_ignored_false",
    "Mercurio.C77_own_message_false",
    "Mercurio.C77_retained_false",
    "Mercurio.C77_limits_partial"
   ],
   "note": "The options of a subscription are honoured. [C77_options_ignored_false] C77 is false, in general: the options make no difference. Two SUBSCRIBE packets with the same identifier and filters but any options have the same answer and lead to the same state. [C77_own_message_false] C77 is false of no-local and the maximum QoS: whatever the options are, a client that subscribes to a filter and then publishes to a topic it matches is sent its own message, with the QoS it published with; the SUBACK had said QoS 0. [C77_retained_false] C77 is false of the retain options: whatever they are, a client that subscribes is sent the retained messages its filter matches, also those it had before and also if it asked for none, and the packet is not marked as retained. [C77_limits_partial] C77 (partial): the QoS granted is never more than the one asked for, a message is never sent with more than the QoS it was published with, and no packet is marked as retained (which is right for live messages of subscriptions without \"retain as published\")."
  },
  {
   "property": "C78",
   "status": "proved",
   "theorems": [
    "Mercurio.C78_forwarding",
    "Mercurio.C78_ends",
    "Mercurio.C78_packet",
    "Mercurio.C78_auth",
    "Mercurio.C78_first"
   ],
   "note": "A connection ends only through its own client, socket or timer. [C78_forwarding] C78: forwarding a message never ends the connection of the subscriber, whatever bytes any client has sent: the handler goes on running, and what it writes is nothing or the encoding of one PUBLISH. [C78_ends] C78: a running handler ends only by what its own client sent (read by `turn`), by the end of its stream, or by its timer, a shutdown or an error of its socket; never because of another connection or of a message to be sent. [C78_packet] C78 for packets: on a connection that has been let in, a packet (other than AUTH, see C48) that was read from the bytes is answered in writing, and the handler goes on, exactly if the packet is one of those a client may send and the keep-alive is not 0; otherwise the handler ends. [C78_auth] C78 for AUTH: it is answered in writing, and the handler goes on, exactly if the authenticator that the client's exchange is with has an answer and the keep-alive is not 0; without authenticators every AUTH ends the handler. [C78_first] C78 for the first packet: the handler of a new connection goes on exactly if the packet is a CONNECT, with accepted user name and password if they are required, and the CONNACK could be written. Whatever the packet, what the server sends it can write."
  },
  {
   "property": "C79",
   "status": "partial",
   "theorems": [
    "Mercurio.C79_no_new_connections",
    "Mercurio.C79_notice",
    "Mercurio.C79_all_end_partial",
    "Mercurio.C79_silent_connection_false"
   ],
   "note": "A shutdown ends the server in order. [C79_all_end_partial] C79: a connection that has noticed the shutdown stays closed, whatever happens before and after; so when all have noticed, no client that was connected at the shutdown is connected any more. [C79_silent_connection_false] C79 is false for a connection on which the client has not said anything yet, always: it never notices the shutdown, and when the CONNECT comes afterwards, the client is let in as usual."
  },
  {
   "property": "C80",
   "status": "partial",
   "theorems": [
    "Mercurio.C80_sub_connect",
    "Mercurio.C80_bad_qos",
    "Mercurio.C80_unknown_version_false",
    "Mercurio.C80_publish",
    "Mercurio.C80_exit_status_false",
    "Mercurio.C80_sub",
    "Mercurio.C80_success_written",
    "Mercurio.C80_failed_publish",
    "Mercurio.C80_exit_status",
    "Mercurio.C80_address"
   ],
   "note": "The command line tool does what its arguments say. [C80_unknown_version_false] C80 is false for `-V`: an unknown version is not refused, the tool connects with MQTT 5. [C80_exit_status_false] C80 is false for the exit status, in general: with an invalid topic (`a/#`, say) the tool reports success as well, although the server publishes nothing and ends the connection."
  },
  {
   "property": "C81",
   "status": "partial",
   "theorems": [
    "Mercurio.C81_call",
    "Mercurio.C81_success_written",
    "Mercurio.C81_disconnect",
    "Mercurio.C81_after_the_end",
    "Mercurio.C81_end_told",
    "Mercurio.C81_server_disconnect_false"
   ],
   "note": "What the calls of the client mean. [C81_server_disconnect_false] C81 is false for a DISCONNECT the server sends, always: the application is told that it is disconnected, but its client goes on: it still reads, and calls still succeed."
  },
  {
   "property": "C82",
   "status": "proved",
   "theorems": [
    "Mercurio.C82_once_in_order",
    "Mercurio.C82_alone",
    "Mercurio.C82_finishes",
    "Mercurio.C82_orders_differ"
   ],
   "note": "Concurrent publications reach every subscriber once, in each publisher's order. [C82_once_in_order] C82: any number of tasks publish at the same time, to valid topics, their steps interleaved in any way. A subscription with filter `f`, made at any time, has been given an interleaving of the publications that the tasks began after it and that `f` matches: none is missing, none is there twice, none that does not match, and those of one task are in the order in which the task published them. Only a publication that is still running may be missing. [C82_alone] C82, that the step by step model is about the same function: a `publish` that runs alone has the effect that `TopicTree.publish` describes. [C82_finishes] C82: a publication comes to its end, whatever the other tasks do: the task inside `publish` always has a next step, and takes less than 5 \u00b7 2\u207f of them if the topic has `n` levels. [C82_orders_differ] A case for C82; and different subscribers may see the publications of different tasks in different orders."
  },
  {
   "property": "C83",
   "status": "partial",
   "theorems": [
    "Mercurio.C83_live_false",
    "Mercurio.C83_retained_false",
    "Mercurio.C83_first_level_partial"
   ],
   "note": "Topics beginning with $ are kept from wildcard subscriptions. [C83_live_false] C83 is false, always: after any history, a subscription whose filter begins with a wildcard is given every publication to a topic beginning with `$` that the filter would match if `$` were an ordinary character. [C83_retained_false] C83 is false for retained messages in the same way: a new subscriber to a filter that begins with a wildcard is given those of topics beginning with `$`. [C83_first_level_partial] C83, what holds: a filter that does not begin with a wildcard matches only topics with the same first level; so it matches topics beginning with `$` only if it begins with `$` itself."
  },
  {
   "property": "C84",
   "status": "partial",
   "theorems": [
    "Mercurio.C84_ignored_false",
    "Mercurio.C84_sent_partial"
   ],
   "note": "Packet properties and reason codes have their effect. [C84_ignored_false] C84 is false, as a whole: in every history the server does exactly what it would do if none of the clients' packets had any properties, subscription options or reason codes. [C84_sent_partial] C84, the other direction: whatever state the server is in and whatever happens, no packet it sends has properties, except for the client identifier it assigns (and those of AUTH packets)."
  },
  {
   "property": "C85",
   "status": "partial",
   "theorems": [
    "Mercurio.C85_shared_false"
   ],
   "note": "Shared subscriptions distribute messages among their group. [C85_shared_false] C85 is false, always: a shared subscription (a filter with first level `$share`) is granted like any other, but after any history it is given no publication to a topic whose first level is not literally `$share`, whatever the rest of the filter."
  },
  {
   "property": "C86",
   "status": "partial",
   "theorems": [
    "Mercurio.C86_both_open_false",
    "Mercurio.C86_one_queue_false",
    "Mercurio.C86_lost_to_old_false",
    "Mercurio.C86_clean_start_false",
    "Mercurio.C86_new_partial"
   ],
   "note": "A second connection of a client replaces the first. [C86_both_open_false] C86 is false, always: when a client is let in under the identifier of a client that is connected, the older connection stays open, whether the new one asks for a clean start or not. [C86_one_queue_false] C86 is false of messages, too: if the new connection did not ask for a clean start, both connections draw from the same queue. Whichever is served first is sent the next message of a subscription, and then it is gone for the other one. [C86_lost_to_old_false] The case at hand: the client has subscribed to `a/+`, connects again, and a message is published; the new connection and the old one would both be sent it, but once it is sent on the old one there is nothing for the new one. [C86_clean_start_false] With a clean start nothing of the older connection changes: it keeps its subscriptions and goes on being sent the messages that match them. [C86_new_partial] What does hold of C86: the new connection is let in with the session, and if it did not ask for a clean start it has the subscriptions that the session had."
  },
  {
   "property": "C87",
   "status": "partial",
   "theorems": [
    "Mercurio.C87_numbered_partial",
    "Mercurio.C87_will_unreadable_false",
    "Mercurio.C87_replaced_false",
    "Mercurio.C87_collision_false"
   ],
   "note": "Forwarded messages have packet identifiers that identify them. [C87_numbered_partial] C87 (partial): in every history in which the clients' PUBLISH packets have an identifier exactly if their QoS is 1 or 2, so has every PUBLISH the server forwards, unless it is the will of a client; a will is always sent without one. Missing, because false: wills, and that identifiers in use are distinct. [C87_will_unreadable_false] C87 is false for wills with QoS 1 or 2, always: what a subscriber is sent for one (to any filter, of any payload) cannot be read as a PUBLISH with that payload, whatever follows it. [C87_replaced_false] C87 is false for messages in flight: identifiers are those of the publishers, so a message may come under the identifier of one the client has not acknowledged yet; then, in any state, the older one is forgotten. [C87_collision_false] C87 is false: this history and one more event use one identifier for two messages that are both unacknowledged, and after a restart only the second one is sent again, although all PUBLISH packets have identifiers as they should."
  },
  {
   "property": "C88",
   "status": "partial",
   "theorems": [
    "Mercurio.C88_live",
    "Mercurio.C88_retained",
    "Mercurio.C88_never_missed",
    "Mercurio.C88_agree_false",
    "Mercurio.C88_twice",
    "Mercurio.C88_agree_partial"
   ],
   "note": "Concurrent publications and subscriptions lose nothing, and agree about the last message. [C88_agree_false] C88, that the retained message is the last one the subscribers were given, is false: here the first subscriber was given the second message and then the first, and is left with the first, while all who come later are given the second. All calls have returned. [C88_agree_partial] What holds of it: if only one task publishes to a topic, with the retain flag and a payload, and its calls have returned, then the last message a subscriber of the topic was given is the one retained."
  },
  {
   "property": "C89",
   "status": "proved",
   "theorems": [
    "Mercurio.C89_alone",
    "Mercurio.C89_histories",
    "Mercurio.C89_answers",
    "Mercurio.C89_bounded",
    "Mercurio.C89_progress",
    "Mercurio.C89_published",
    "Mercurio.C89_delivery",
    "Mercurio.C89_nothing_lost"
   ],
   "note": "Connections served at the same time answer everything, block nobody and lose nothing. [C89_alone] C89, that the step by step model is about the same server: the handling of a packet that no other connection interrupts has the effect, and sends the packets, that `Server.step` describes. [C89_histories] C89, that the step by step model is about the same server, for whole histories: in any history in which clients connect with clean starts, whatever they send and however they leave, a server that handles one event after the other is in a state that connections running at the same time can get into, and sends on each connection what they can send. [C89_answers] C89: packets are handled at the same time on any number of connections, step by step, in any interleaving. Of a packet that arrives on connection `c` and is one a client may send, nothing is answered while it is being handled, and when that is over what was sent is the answer to it, with one reason code per filter for a SUBSCRIBE. Any other packet is not answered, and the connection never takes a packet again. [C89_bounded] C89: on a connection with the given will, the handling of a packet is over after a bounded number of steps, whatever the other connections do in between: less than 5 \u00b7 2\u207f for a publication to a topic with `n` levels, about two per filter of a SUBSCRIBE. [C89_progress] C89: at every time, a connection that is handling a packet can take its next step, or it waits for another one to leave the topic tree, which can take its next step. So no set of connections ever blocks itself. [C89_published] C89: what the broker is given for connection `c`, whatever the other connections do: the messages of the PUBLISH packets with valid topics, each once, in the order in which they arrived; and, when the connection ends in another way than by DISCONNECT, its will, after them. [C89_delivery] C89: connections are handled at the same time, their steps interleaved in any way. A SUBSCRIBE that contains the valid filter `f` arrives on connection `c` at `s0`, its SUBACK is sent at `s3`, and after that the client neither subscribes to `f` again nor unsubscribes from it. What it is due for `f` is: for each topic that `f` matches, the retained message of a time between `s0` and `s3`; then an interleaving of the messages that `f` matches of all connections. Of the messages of connection `k`, in its order, those are `parts k`: none that was routed when the SUBSCRIBE arrived, all that arrive after the SUBACK, except one that is still being routed. What is sent on `c` for `f` is never anything else, each once and in order. As long as never more than 16 messages wait nothing is left out, and when nothing is left to send it is all. [C89_nothing_lost] C89: in particular nothing is lost between the connections. If the client has been sent everything, and never more than 16 messages waited for it, then it has been sent every message that `f` matches and that arrived after its SUBACK on a connection `k` that is done with it, those of one connection in order."
  },
  {
   "property": "C90",
   "status": "proved",
   "theorems": [
    "Mercurio.C90_in_order",
    "Mercurio.C90_given_up",
    "Mercurio.C90_answered",
    "Mercurio.C90_client_kept"
   ],
   "note": "Calls made at the same time on one client are carried out one at a time and each is answered once. [C90_in_order] C90: calls made at the same time are carried out one at a time, in the order in which they were made. At every moment the calls made are those that have been carried out (or refused because the connection had ended) followed by those still waiting; every one of the former has been answered, each caller with the result of its own call; and what was written to the connection for calls is, in this order, one packet for each call that succeeded, saying what this call asked for, and nothing for a call that failed. [C90_given_up] C90, whoever gives up waiting: the calls carried out or waiting are among those made, in their order, every answer is that of the caller's own call, and for each call that succeeded one packet was written, saying what it asked for; so no caller gets two answers. [C90_answered] C90: every call is answered. At any moment, once the application has taken the events waiting for it and the event loop has taken as many commands as there are calls waiting, each caller has its answer, in the order of the calls. [C90_client_kept] C90: the client is never dropped under its callers: after any history, if the application has dropped its client, nobody waits for an answer."
  },
  {
   "property": "C91",
   "status": "partial",
   "theorems": [
    "Mercurio.C91_bounded_partial",
    "Mercurio.C91_hangs_false",
    "Mercurio.C91_given_up_false",
    "Mercurio.C91_dropped_false",
    "Mercurio.C91_withdrawn_partial"
   ],
   "note": "An application may be slow to take events, give up calls or drop its client without harm. [C91_bounded_partial] C91, what holds: however slowly the application takes its events, never more than 257 of them are kept for it. Missing: that its calls return and its connection is kept alive (`C91_hangs_false`), that a call it gave up is not carried out (`C91_given_up_false`), and that dropping the client ends its connection (`C91_dropped_false`). [C91_hangs_false] C91 is false: when 257 messages have arrived and the application has taken none of them, then, as long as it takes none and whatever else happens, no call returns, nothing is written (no acknowledgement, no ping), and no packet is read. [C91_given_up_false] C91 is false for calls that are given up, in general: a call given up after it got into the command channel is carried out all the same. [C91_dropped_false] C91 is false for clients that are dropped, always: when an application drops its connected client, the connection stays open until the server or the network ends it, and no DISCONNECT is written. Until then every QoS 1 message is acknowledged, although nobody is given it, and pings keep the connection alive. [C91_withdrawn_partial] C91, exactly which calls are withdrawn by giving up: those that have 32 or more calls before them. The first 32 calls that wait stay as they are (so they are carried out, see `C91_given_up_false`). In either case only that caller stops waiting, and nothing else changes."
  },
  {
   "property": "C92",
   "status": "proved",
   "theorems": [
    "Mercurio.C92_kept_bytes",
    "Mercurio.C92_before_connect"
   ],
   "note": "The bytes kept for a connection are bounded. [C92_kept_bytes] C92: whatever a peer sends, the bytes kept for its connection are the last bytes it sent, and fewer than the longest packet MQTT allows has (2^28 + 4), plus those of one read. [C92_before_connect] C92: this bound is reached by peers that are nobody: on a new connection, any bytes that begin like the longest packet (of any kind) are kept, in whatever pieces they come, as long as they are fewer than announced; nothing is answered, the connection goes on, and authentication has no say in it."
  },
  {
   "property": "C93",
   "status": "partial",
   "theorems": [
    "Mercurio.C93_sessions_false",
    "Mercurio.C93_stored_false",
    "Mercurio.C93_anonymous_false",
    "Mercurio.C93_channels_false",
    "Mercurio.C93_unsubscribed_false",
    "Mercurio.C93_bounded_partial"
   ],
   "note": "The server releases what is no longer used. [C93_sessions_false] C93 is false for sessions: the server keeps a session for a client identifier exactly if a CONNECT with it has been let in since the process was started. Nothing releases it: not DISCONNECT, not the end of the connection, not a session expiry interval of 0, not a later CONNECT with a clean start. [C93_stored_false] C93 is false for stored sessions: the record of a client in the storage stays whatever happens, restarts included, until the client itself connects again with a clean start. [C93_anonymous_false] C93 is false: clients that connect without an identifier, ask for no session to be kept and disconnect leave a record each in the storage, for ever: after any number of them there are no connections, and as many records. [C93_channels_false] C93 is false for channels: the topic tree has a channel for a filter, and for every beginning of it, exactly if the filter has been subscribed to since the process was started, whether or not anybody still subscribes to it. [C93_unsubscribed_false] C93 is false for channels, in terms of packets: after an accepted SUBSCRIBE the channels stay whatever happens while the process runs; UNSUBSCRIBE and the end of all connections do not remove them. [C93_bounded_partial] C93, what holds: what is kept is bounded by what clients did. There are at most as many sessions as there have been CONNECTs and at most as many retained messages as there have been topics published to; no session and no client has more than 65536 messages in flight."
  },
  {
   "property": "C94",
   "status": "partial",
   "theorems": [
    "Mercurio.C94_control_packet_false",
    "Mercurio.C94_each_kind_false",
    "Mercurio.C94_pubrec_pubrel_false",
    "Mercurio.C94_connect_payload_partial"
   ],
   "note": "Packets announce their size. [C94_control_packet_false] C94 is false for control packets: whatever the memory layout, some control packet announces another number than the number of bytes it is written as. [C94_each_kind_false] C94 is false for every kind of packet that has contents: whatever the memory layout, some packet of that kind announces another number than the number of bytes it is written as. [C94_pubrec_pubrel_false] C94 is false for PUBREC and PUBREL: asking any of them for its size aborts. [C94_connect_payload_partial] C94: the payload of a CONNECT announces the number of bytes it is written as. Missing (and false, see above): packets."
  },
  {
   "property": "C95",
   "status": "partial",
   "theorems": [
    "Mercurio.C95_client_id_partial",
    "Mercurio.C95_rest_lost_false"
   ],
   "note": "The payload of a CONNECT survives encoding and decoding on its own. [C95_client_id_partial] C95: what the decoder of a CONNECT payload reads back from an encoded payload is the client identifier alone; all other bytes stay unread. Missing (and false, see below): the other fields. [C95_rest_lost_false] C95 is false for every payload with anything but a client identifier: it does not come back."
  },
  {
   "property": "C96",
   "status": "proved",
   "theorems": [
    "Mercurio.C96_last_set",
    "Mercurio.C96_will",
    "Mercurio.C96_connect"
   ],
   "note": "The client's options are the last ones set. [C96_last_set] C96: whatever calls an application makes on its options, in whatever order and how often, each option is the last value it was given; host and port are those it began with; an option never set has its default: MQTT 5, a clean start, keep-alive 60, a timeout of 30 seconds, no client id, credentials or will, no TLS. [C96_will] C96: a will is what it was made with; its QoS is 0 and it is not retained unless set, each setting leaves the rest alone. [C96_connect] C96: the CONNECT the server reads says what the calls said last."
  },
  {
   "property": "C97",
   "status": "partial",
   "theorems": [
    "Mercurio.C97_connected",
    "Mercurio.C97_handed",
    "Mercurio.C97_unreachable",
    "Mercurio.C97_time_partial",
    "Mercurio.C97_write_fails",
    "Mercurio.C97_tls_fails",
    "Mercurio.C97_no_answer",
    "Mercurio.C97_each_step_anew_false",
    "Mercurio.C97_never_returns_false"
   ],
   "note": "Connecting tells the truth, in time. [C97_time_partial] Part of C97: if the CONNECT can be written in `w` milliseconds, `connect` returns, after at most twice the timeout and `w`, three times with TLS. [C97_each_step_anew_false] C97 is false for the time: the timeout is granted to each step anew. Whatever the options are, a slow enough server is connected to after twice the timeout, with TLS after three times. [C97_never_returns_false] C97 is false for the time in another way: writing the CONNECT has no timeout. If the server is reached and then takes no bytes, `connect` never returns, whatever the timeout is."
  },
  {
   "property": "C98",
   "status": "proved",
   "theorems": [
    "Mercurio.C98_texts",
    "Mercurio.C98_cause"
   ],
   "note": "The texts of errors tell the errors apart. [C98_texts] C98: two reason codes, topic errors, protocol versions, errors of the library or errors of the client with the same text are the same. [C98_cause] C98: an error names its cause: the text of a protocol error ends with that of its reason code, the text of an I/O or storage error with that of the cause, and only an I/O error has one behind it; and this is so of the errors that `?` makes of reason codes and I/O errors."
  },
  {
   "property": "C99",
   "status": "partial",
   "theorems": [
    "Mercurio.C99_after_ping_false",
    "Mercurio.C99_published_then_disconnected_partial"
   ],
   "note": "A client may publish and disconnect at once: what it published is not lost. [C99_after_ping_false] C99 is false for every client whose ping timer has ticked once while it was connected: whatever it does afterwards (`evs` is arbitrary: it may publish to valid topics, with every call returning normally, and disconnect), none of the messages it publishes after the ping is among those the server publishes. [C99_published_then_disconnected_partial] C99: any number of built-in clients, connected to the server by byte streams. A client `d` is new since some time (after `evs1`), or nothing was in transit from it then; later (after `a`, a time that may differ from client to client) it is connected and nothing is in transit from it. From then on (`b`) its application makes any calls, publishing to valid topics, and may disconnect; its own socket and its reads may fail; and the server does not give the connection up (keep-alive timeout, shutdown, I/O error). As soon as the server has closed the connection, or has acted on everything the client wrote, every message for which `publish` returned normally has been published, once, in the order of the calls: it is in the list `L` that all subscribers get their messages from (the third part says how, see C74). So a client may publish and disconnect at once. Missing: the ticks of the client's own ping timer (`Kept` excludes them; with them the claim is false, see `C99_after_ping_false`), and clients with keep-alive 0 (see `C75_keep_alive_zero_false`)."
  },
  {
   "property": "C100",
   "status": "proved",
   "theorems": [
    "Mercurio.C100_nothing_made_up",
    "Mercurio.C100_unsubscribed"
   ],
   "note": "Applications receive only what they asked for and what was published. [C100_nothing_made_up] C100, first part: any number of built-in clients, connected to the server by byte streams. Client `c` started clean, does not share its session with another client, and its connection is up. Then every message its application got is one that an application published (or a client's will), with its payload and QoS, on a topic that matches a filter the application subscribed to: the filter that the message is given as its topic. [C100_unsubscribed] C100, second part: at one time (after `evs1`) nothing is in transit on the connection of client `c`, which started clean, and its application is not subscribed to `f`, because it never was or has unsubscribed. As long as it does not subscribe again it gets no message for `f`."
  },
  {
   "property": "C101",
   "status": "proved",
   "theorems": [
    "Mercurio.C101_tools",
    "Mercurio.C101_one_filter"
   ],
   "note": "Lines typed into one command line tool come out of another. [C101_tools] C101: any number of built-in clients, among them command line tools, connected to a server by byte streams. `L` is, in an order common to all subscribers, what was published between two moments (after `evs1`, after `evs2`). A run of `mercurio pub` that is started in between and ends with exit status 0 has published its message, with the payload of the command line or of standard input, the topic, the QoS and the retain flag of the command line (if it asked for a keep-alive other than 0, see `C75_keep_alive_zero_false`): it is in `L` exactly once, and `L` has nothing else of this client. A run of `mercurio sub` that has subscribed before, and whose ping timer may tick, prints in between only lines for messages of `L` whose topic a filter of the command line matches, for each filter in the order of `L`; and if these are at most 16, all of them, once nothing is in transit and the tool has taken all events. [C101_one_filter] C101 for one filter, which is valid: if at most 16 messages it matches were published, the tool prints a line for each of them, in the order in which they were published, and nothing else."
  },
  {
   "property": "C102",
   "status": "partial",
   "theorems": [
    "Mercurio.C102_end_reason",
    "Mercurio.C102_close_told",
    "Mercurio.C102_silent_end_false",
    "Mercurio.C102_no_disconnect_false",
    "Mercurio.C102_refused_told_partial",
    "Mercurio.C102_up_not_told"
   ],
   "note": "A client learns why its connection ended. [C102_silent_end_false] C102 is false of the reason the server has: whatever makes the server end the connection of a client that is in (a protocol error, a keep-alive timeout, a shutdown), it sends nothing when it does so. MQTT 5 has the DISCONNECT with a reason for this (sections 3.14, 4.13). [C102_no_disconnect_false] C102: nor does it say so before: a DISCONNECT from the server is never sent, to any client, in any history. [C102_refused_told_partial] C102: a client that is refused is told why: the CONNACK carries the reason."
  },
  {
   "property": "C103",
   "status": "partial",
   "theorems": [
    "Mercurio.C103_after_ping_false",
    "Mercurio.C103_will_partial",
    "Mercurio.C103_keep_alive_zero_false"
   ],
   "note": "The will of a client that is cut off reaches the subscribers, that of a client that disconnects does not. [C103_after_ping_false] C103 is false for every client whose ping timer has ticked once while it was connected (in a release build): whatever happens afterwards, once the server has closed the connection the will of this client has been published, even if its application has called `disconnect`, the call has returned normally and the server has read every byte of it. As in C103, the client starts clean and does not share its session. [C103_will_partial] C103: any number of built-in clients, connected to the server by byte streams. A client `d` that starts clean and does not share its session is connected at some time (after `a`) and nothing is in transit from it then. Later (after `b`): as long as the server has not closed the connection, the will of `d` has not been published. When the server has closed the connection, for whatever reason, and the application has not disconnected (it did not call `disconnect`, or the call failed), the will has been published, once, as the client gave it; in a debug build only if the client has not pinged, as the server may then abort on what follows (C03, C18). If the application has disconnected, and the server did not give the connection up itself (keep-alive timeout, shutdown, I/O error, an invalid topic), it has not been published. \"Published\" means: it is in the list `L` that all subscribers get their messages from (the last part says how, see C74). Missing: in the last case the ticks of the client's own ping timer (`Kept` excludes them; with them the claim is false, see `C103_after_ping_false`), and clients with keep-alive 0: the server drops them at their second packet (`C75_keep_alive_zero_false`), without their will (`C103_keep_alive_zero_false`). [C103_keep_alive_zero_false] C103 is false for every client that connected with keep-alive 0 and of which the server has published at least one message, always: the server has ended the connection, and the will of the client has not been published and never will be (the theorem holds for every longer history as well). Nothing is said of the application: it need not have called `disconnect`, see the example. As in C103, the client starts clean and does not share its session."
  },
  {
   "property": "C104",
   "status": "proved",
   "theorems": [
    "Mercurio.C104_late_subscriber"
   ],
   "note": "An application that subscribes late gets the retained messages first, then everything since. [C104_late_subscriber] C104: an application subscribes late. At one time (after `evs1`) nothing is in transit on the connection of client `c`, which started clean, and its application is not subscribed to the valid filter `f`. After some more events (`a`) it calls `subscribe`, and no other call of it, before or after, names `f`. `A` is what had been published when it called, `B` what was published while `b` happened, `D` what was published afterwards, during `d`. There is a moment (between `B1` and `B2`) after the call, and before the end of `b` if nothing is in transit from the client then, such that the application is due for `f`: first one message for each topic that `f` matches and that has a retained message at that moment, then every message published since to a topic `f` matches. What it gets for `f` is taken from that in order and without repetition; without a gap if no more than 16 matching messages were published since; and it has got all of it once nothing is in transit any more, if the call of `subscribe` succeeded."
  },
  {
   "property": "C105",
   "status": "partial",
   "theorems": [
    "Mercurio.C105_away_lost_false",
    "Mercurio.C105_begins",
    "Mercurio.C105_goes_on",
    "Mercurio.C105_exactly_matching_partial",
    "Mercurio.C105_not_resent_false"
   ],
   "note": "A client that comes back to its session gets what was published while it was away. [C105_away_lost_false] C105 is false for more than sixteen messages: a client of the session kept for `cid` subscribes to a valid filter `f`. Later (after any history `es`) it is away, or just busy: for some time (`away`) it is sent nothing for `f`, on no connection of its session, while at least sixteen messages are accepted that `f` matches. Whatever happens afterwards (`back`), as long as the session and the subscription are kept and no task panics: of all the messages published before and while it was away, only the newest sixteen can still reach it. All that it is ever sent for `f` from then on are retained messages of the time it subscribed, these sixteen, and later ones. [C105_exactly_matching_partial] C105: a client of the session kept for the identifier `cid` subscribes to a valid filter `f`. In every later history that leaves the session and the subscription in place (the client may leave, in order or not, and come back on other connections, any number of times, even on several at once), the packets sent for `f` on all connections of the session together are, in order and without repetition, messages from the same list as in C62: the retained messages of the topics `f` matches, as they were when it subscribed; then the publications since, whose topic `f` matches - also those accepted while the client was away. If never more than 16 of them are waiting (while it is away, too), and no task of the server panics, none is skipped, and when one of its connections has nothing more to send, all of them have been sent. [C105_not_resent_false] C105 is false for messages that were sent and not acknowledged before the client left: however many QoS 1 and QoS 2 messages are recorded as unacknowledged for it, a client that comes back to the session the server keeps (without a restart in between) is told that its session was resumed, and is sent nothing but that."
  },
  {
   "property": "C106",
   "status": "partial",
   "theorems": [
    "Mercurio.C106_server_catches_up",
    "Mercurio.C106_client_catches_up_partial",
    "Mercurio.C106_messages_arrive_partial",
    "Mercurio.C106_large_message_false"
   ],
   "note": "Whatever is in transit on a connection can arrive. [C106_client_catches_up_partial] C106 (partial): once the server is done, the client can catch up as well, and in the end nothing is in transit on the connection. Missing, because it is false: the server may have sent packets of more than 4096 bytes, see `C106_large_message_false`. [C106_messages_arrive_partial] C106 (partial): so messages do arrive. The application of `c` has subscribed to `f`, nothing was in transit, and since then anything harmless has happened. Then the two sides of its connection can go on so that the server is done with the client, and, if all packets it sent have at most 4096 bytes, so that the application has got every message that was published on topics `f` matches, if these are no more than 16. Missing, because it is false: messages for which a packet of more than 4096 bytes is sent (`C106_large_message_false`), and more than 16 messages (C112). [C106_large_message_false] C106 is false for large messages, always: when the next thing on its way to a connected client is a message whose payload has at least 4096 bytes, then whatever happens afterwards (`evs` is arbitrary), the application does not get this message nor any later one on this connection; the client never even has all the bytes of it."
  },
  {
   "property": "C107",
   "status": "partial",
   "theorems": [
    "Mercurio.C107_server_catches_up_with_all",
    "Mercurio.C107_everything_arrives_partial"
   ],
   "note": "What applications have published can reach all subscribers together. [C107_everything_arrives_partial] C107 (partial): what applications have published can reach all subscribers. In the situation of `C107_server_catches_up_with_all` there is a way to go on with steps on the connections of `C` only, and without any call of an application except `recv`, after which the server is done with all of them; and, if every packet it sent to them has at most 4096 bytes, one after which nothing is in transit on any of these connections. Then there is one list `L` of messages in which every client of `C` has exactly what its application published since the first time, in order (including what the server had not read yet), and every application of `C` that had subscribed to a filter `f` before has got exactly the messages of `L` whose topic `f` matches, in the order of `L`, if they are no more than 16. Missing, because it is false: packets of more than 4096 bytes (`C106_large_message_false`), and more than 16 messages for a subscription (C112)."
  },
  {
   "property": "C108",
   "status": "partial",
   "theorems": [
    "Mercurio.C108_comes_to_rest",
    "Mercurio.C108_everything_is_delivered_partial"
   ],
   "note": "Left alone, the system comes to rest, with everything delivered. [C108_everything_is_delivered_partial] C108 (partial): left alone, the system delivers everything. In the situation of `C108_comes_to_rest`, if no task on the connections of `C` is put off for ever, then from some time on nothing is in transit on any of them: the server has read and acted on everything the clients sent and has no message left for them, and the clients have read and acted on everything the server sent. Then there is one list `L` of messages in which every client of `C` has exactly what its application published since the first time, in order, and every application of `C` that had subscribed to a filter `f` before has got exactly the messages of `L` whose topic `f` matches, in the order of `L`, if they are no more than 16. Missing, because it is false: that reads of a client may end anywhere (C72: the rest of a packet may be taken for another one; packets of more than 4096 bytes can not be read at all, `C106_large_message_false`), and more than 16 messages for a subscription (C112)."
  },
  {
   "property": "C109",
   "status": "proved",
   "theorems": [
    "Mercurio.C109_outsider_leaves_no_trace",
    "Mercurio.C109_refused",
    "Mercurio.C109_only_users",
    "Mercurio.C109_told",
    "Mercurio.C109_admitted",
    "Mercurio.C109_users_get_in",
    "Mercurio.C109_passwd",
    "Mercurio.C109_passwd_deleted"
   ],
   "note": "Only the users of the password file can use the broker, they always can, and others leave no trace. [C109_outsider_leaves_no_trace] C109: a peer that never presents accepted credentials, whatever bytes it sends, in whatever pieces, leaves no trace: the state of the server (its sessions, subscriptions, retained messages, queues) and all other connections, with what has been sent on them, are as if it had never come. [C109_refused] C109: in every run of a system whose server asks for credentials, an application whose options do not hold accepted ones never gets a connected client; if its `connect` is refused, the reason it is told is that user name or password are wrong; and nothing of it gets into the server. [C109_only_users] C109: in every run of a system whose server is a daemon told to authenticate, every application that gets a connected client gave it the name of a user whom the password file lists, and that user's password. [C109_told] C109: an application whose options do not hold accepted credentials learns it: if its CONNECT gets to the server and the answer back, whatever other clients do in the meantime, its `connect` fails, and the reason is that user name or password are wrong. [C109_admitted] C109: an application whose options hold accepted credentials is let in: if its CONNECT (with a clean start) gets to the server and the answer back, whatever other clients do in the meantime, it gets a connected client. [C109_users_get_in] C109: a daemon told to authenticate lets in every user whom the password file lists, with their password: if the CONNECT (with a clean start) gets to the server and the answer back, whatever other clients do in the meantime, the application gets a connected client. [C109_passwd] C109: after `mercuriod passwd` has given a user a password, a daemon started with the file lets this user in with every password that verifies against the new hash, and nobody with this name and another password. [C109_passwd_deleted] C109: after `mercuriod passwd -d`, a daemon started with the file never lets the user in."
  },
  {
   "property": "C110",
   "status": "partial",
   "theorems": [
    "Mercurio.C110_silent_is_closed_partial",
    "Mercurio.C110_timer_strikes",
    "Mercurio.C110_never_early",
    "Mercurio.C110_no_connect_false",
    "Mercurio.C110_failure_ends",
    "Mercurio.C110_not_reading_false",
    "Mercurio.C110_same_server",
    "Mercurio.C110_will_in_time_partial"
   ],
   "note": "A client that falls silent is disconnected in time, no other is, and its will is published then. [C110_silent_is_closed_partial] C110 (a): a client with keep-alive `k` that has been silent for one and a half times `k` seconds (rounded down to seconds) and however late the runtime attends to timers is not connected any more. Silent means that no packet of it was complete: bytes that do not complete one do not count, and what others do, and what is sent to the client, does not matter. Missing: clients that have not sent CONNECT and clients that do not take what is sent to them are not closed, see below; clients with keep-alive 0 are not meant to be. [C110_no_connect_false] C110 is false of a connection on which no packet has been completed, not even CONNECT (or, in the case of TLS, not even the handshake): the server waits for it without a limit, whatever else happens and however long it takes; and any amount of time can pass. [C110_not_reading_false] C110 is false of a client that does not read what is sent to it: once a write does not return, the client stays connected without a limit, whatever its keep-alive and whatever else happens; and any amount of time can pass. [C110_will_in_time_partial] C110 (d): the will of a client with keep-alive `k` that falls silent is published, exactly once, with the topic, payload, QoS and retain flag of its CONNECT, at the latest when it has been silent for one and a half times `k` seconds and however late the runtime attends to timers. For clients that have started clean and that do not share their identifier, and unless the server panics on the client's bytes or on a message for it (then the will is lost, see C42); and, as for (a), unless a write to the client gets stuck."
  },
  {
   "property": "C111",
   "status": "partial",
   "theorems": [
    "Mercurio.C111_stays_connected_false",
    "Mercurio.C111_first_period_partial",
    "Mercurio.C111_pings",
    "Mercurio.C111_same_system"
   ],
   "note": "A built-in client that is left alone stays connected. [C111_stays_connected_false] C111 is false: no built-in client stays connected for long, although it sends its pings in time. In a run in which applications do what they are allowed to (`evs1`, `evs2`, `evs3`), let `connect` have returned client `c` with keep-alive `k`; let its application take its events, so that it does not hold up the event loop (in `evs2`), longer than the ping interval, let the client then be running, and the server have read and acted on all it has sent, and not be stuck in a write to it. Then, whatever the client sends from now on (for instance a ping each interval) the server has closed the connection when one and a half times the keep-alive have passed (`evs3`). [C111_first_period_partial] C111, the part that holds: a client whose CONNECT the server accepts (during `evs2`) is not disconnected by the timer before one and a half times its keep-alive have passed since then. (What is missing: anything beyond the first ping, see `C111_stays_connected_false`.)"
  },
  {
   "property": "C112",
   "status": "proved",
   "theorems": [
    "Mercurio.C112_newest_sixteen",
    "Mercurio.C112_kept_sessions"
   ],
   "note": "A slow subscriber loses exactly the oldest messages beyond sixteen. [C112_newest_sixteen] C112: a client with an open connection `c` subscribes to a valid filter `f`. In every later history that leaves the subscription in place (and in which all published topics are valid), whether the client keeps up or not, the packets it is sent for `f` are exactly those of a mailbox: at first it holds the retained messages of the topics `f` matches, one per topic, as they were when it subscribed; every publication since, of any client or will, whose topic `f` matches is put in when the broker accepts it; there is room for sixteen of these, and when they are taken, the oldest is dropped, and nothing else; the retained messages are never dropped; and whenever the connection goes on to the next message, it is sent the first retained message, or, if there is none left, the oldest one in the mailbox. [C112_kept_sessions] C112 for a client that leaves and comes back: it subscribes to a valid filter `f` in the session kept for its identifier `cid`. In every later history that leaves the session and the subscription in place (the client may leave and come back on other connections any number of times, even on several at once), and in which no task of the server panics, the packets sent for `f` on all connections of the session together are exactly those of the mailbox: of what is published while the client is away, too, the newest sixteen messages wait for it."
  },
  {
   "property": "C113",
   "status": "partial",
   "theorems": [
    "Mercurio.C113_acknowledged_partial",
    "Mercurio.C113_acknowledged_lost_false"
   ],
   "note": "An acknowledged message reaches the connected subscribers. [C113_acknowledged_partial] C113 (partial): if a subscriber keeps up (never more than sixteen messages waiting), then a message that was acknowledged to its publisher `d` reaches it: when the subscriber has nothing more to be sent, it has been sent it. Missing, because it is false: subscribers that do not keep up, see the next theorem. [C113_acknowledged_lost_false] C113 is false for subscribers that do not keep up: a client subscribes to a valid filter `f`, and another client publishes any number of messages to topics `f` matches, with QoS 1 or 2 (or any), before the subscriber is sent the next one. All of them are answered as they should be, with PUBACK and PUBREC. But whatever happens afterwards (as long as the subscription is left in place), only the newest sixteen of them can reach the subscriber: all that it is ever sent are retained messages, these sixteen, and later ones."
  },
  {
   "property": "C114",
   "status": "partial",
   "theorems": [
    "Mercurio.C114_nothing_waiting_partial",
    "Mercurio.C114_waiting_lost_false"
   ],
   "note": "Subscribing again to a filter loses no message. [C114_nothing_waiting_partial] C114 (partial): a client subscribes to a filter and later to the same filter again. If it keeps up in both periods, and nothing is waiting for it when it subscribes again (nor in the end), no message is lost: everything published since the first SUBSCRIBE on topics the filter matches was sent to it, in order. Missing, because it is false: messages that are waiting when it subscribes again, see the next theorem. [C114_waiting_lost_false] C114 is false if something is waiting, always: the next packet a client would be sent for its subscription to `f` is `x`, but before that it subscribes to `f` again. Then `x` is lost: whatever happens afterwards (as long as the subscription is left in place), the client is not sent it, unless the broker keeps it as a retained message, or it is published again."
  },
  {
   "property": "C115",
   "status": "partial",
   "theorems": [
    "Mercurio.C115_completed_partial",
    "Mercurio.C115_pubrec_false"
   ],
   "note": "What the client has acknowledged is not sent again. [C115_completed_partial] C115 (partial): a client has completed the message with packet identifier `id` (by PUBACK or PUBCOMP). However often it comes back to its session afterwards (after restarts, too), it is not sent a message under this identifier again when it resumes, unless a new one was sent under it in between. Missing, because it is false: QoS 2 messages it has acknowledged by PUBREC, see the next theorem. [C115_pubrec_false] C115 is false for QoS 2 messages, always: a client has acknowledged such a message by PUBREC, and the server has answered with PUBREL (so that the client may forget the packet identifier). If the server is restarted and the client resumes its session, it is sent the PUBLISH again, and not the PUBREL: to the client, this is a new message."
  },
  {
   "property": "C116",
   "status": "partial",
   "theorems": [
    "Mercurio.C116_marked_partial",
    "Mercurio.C116_passed_on_false"
   ],
   "note": "The duplicate flag marks what is sent again, and nothing else. [C116_marked_partial] C116 (partial): in every history in which no publisher sets the duplicate flag, the PUBLISH packets with the duplicate flag are exactly those that are sent, again, in answer to a CONNECT, to a client that resumes its session: whatever happens, of the packets the server sends then, these are marked, and no others. Missing, because it is false: publishers that set the flag, see the next theorem. [C116_passed_on_false] C116 is false if a publisher sets the flag, always: a client subscribes to a filter which matches no retained message, another client publishes a message with the duplicate flag to a topic it matches (because it sends it a second time, the first one having been lost), and the server sends it to the subscriber. Although it is sent there for the first time, it is marked as a duplicate."
  },
  {
   "property": "C117",
   "status": "partial",
   "theorems": [
    "Mercurio.C117_works_partial",
    "Mercurio.C117_sessions_false",
    "Mercurio.C117_retained_false"
   ],
   "note": "What the broker keeps survives a restart of the daemon. [C117_works_partial] C117 (partial): however often the server has been started, what it does is what a server does that was started once: in particular everything said of reachable servers (C24 to C48, C62 and others) holds after a start as well. Missing, because it is false: that it remembers anything. [C117_sessions_false] C117 is false for sessions, always: whatever happened before the start (the client may have had a session with subscriptions and unacknowledged messages), a client that connects for the first time since is told that there is no session, is sent nothing again and has no subscriptions, although it does not ask for a clean start. [C117_retained_false] C117 is false for retained messages, always: whatever was retained before the start, a client whose subscription matches no topic with a message retained since is sent only messages published after it has subscribed."
  },
  {
   "property": "C118",
   "status": "partial",
   "theorems": [
    "Mercurio.C118_found_partial",
    "Mercurio.C118_mailbox",
    "Mercurio.C118_away_lost_false"
   ],
   "note": "A client that was given an identifier can come back under it. [C118_found_partial] C118 (partial): a client that was given an identifier by the server (an MQTT 5 client is told it in the CONNACK) and comes back under it finds its session: it is told so, it has exactly the subscriptions it had, and it is sent again exactly the messages it has not acknowledged, each once, marked as duplicates. Missing, because it is false (`C118_away_lost_false`): the messages published while it was away. [C118_away_lost_false] C118 is false for the messages published while the client is away, always: unless they are retained, it is never sent them, whatever their QoS; all it is sent for a filter is published after it has come back."
  },
  {
   "property": "C119",
   "status": "proved",
   "theorems": [
    "Mercurio.C119_same_answers",
    "Mercurio.C119_as_if_alone"
   ],
   "note": "What a client is answered depends on nobody else. [C119_same_answers] C119: take any two servers with the same configuration, with any other clients, subscriptions and stored data, and a client that connects to each with the same CONNECT asking for a clean start. It is answered the same; and in any two histories in which the same packets arrive from it, whatever the other clients do and whatever is forwarded to it in between, it is answered the same to each of its packets, and its connection is open afterwards on both or on none. [C119_as_if_alone] C119 on byte streams: a client to which nothing is forwarded, whose CONNECT asks for a clean start and whose identifier nobody else uses at the same time, finds the server as if there were nobody else: for any bytes it sends, in any chunks, and whatever the other connections do, before and meanwhile, the bytes it has been sent, what the server has read from it and whether it is still connected are the same as in the history that consists of its own events alone."
  },
  {
   "property": "C120",
   "status": "proved",
   "theorems": [
    "Mercurio.C120_passwords"
   ],
   "note": "Passwords leave no trace. [C120_passwords] C120: two histories from the same state that are the same but for the passwords of clients, where corresponding passwords are both accepted or both refused, have the same log, at every level of detail; every packet that is sent is the same; and in the end the same connections are open, and the broker and the storage have the same contents."
  },
  {
   "property": "C121",
   "status": "partial",
   "theorems": [
    "Mercurio.C121_refused_are_told",
    "Mercurio.C121_silent_false",
    "Mercurio.C121_forged_false",
    "Mercurio.C121_one_line_partial"
   ],
   "note": "The log tells of every refused password. [C121_silent_false] C121 is false if authentication is required and no check is configured (the daemon without a password file): every CONNECT with a user name and a password is refused, and the log does not say a word about it. [C121_forged_false] C121 is false as for what a reader of the log sees: whatever text `t` (of up to 65533 bytes) a peer chooses, there is an admissible CONNECT, which the peer can send without knowing any password, that makes the server write a message in which `t` stands on a line of its own: the warning about its refused password, or, if passwords are not required, the line about its new session. (The log's writer leaves line feeds in messages as they are.) [C121_one_line_partial] C121 (partial): as long as no client identifier, user name or will topic contains a line feed, every message of the log is one line (above the level of debugging, at which whole packets are printed): then a line that tells of a refused password is one that the server wrote, `C121_refused_are_told`."
  },
  {
   "property": "C122",
   "status": "proved",
   "theorems": [
    "Mercurio.C122_sessions",
    "Mercurio.C122_wills"
   ],
   "note": "The log tells of every session and every will. [C122_sessions] C122: as long as CONNACKs can be written, the lines of the log about sessions are exactly the admitted clients, in order, each with its identifier, and they say \"resumed\" exactly for those whose CONNACK reports a session. [C122_wills] C122: the lines of the log about wills are exactly the wills that are published to the broker, in order, each with its topic and the identifier of the client whose connection ended."
  },
  {
   "property": "C123",
   "status": "proved",
   "theorems": [
    "Mercurio.C123_opaque",
    "Mercurio.C123_not_invented"
   ],
   "note": "Payloads are opaque to the server. [C123_opaque] C123: the server handles payloads as opaque: if all payloads that clients publish, and those of their wills, are replaced, by any replacement that keeps empty payloads empty and others non-empty, then the server sends exactly the same packets at the same events, with the payloads replaced in the same way. [C123_not_invented] C123: the server invents no payload: every payload it sends is empty or is one that a client sent before, in a PUBLISH or as the payload of its will."
  },
  {
   "property": "C124",
   "status": "partial",
   "theorems": [
    "Mercurio.C124_payloads",
    "Mercurio.C124_debug_false"
   ],
   "note": "Payloads do not show in the log. [C124_debug_false] C124 is false at the debug level: whenever a message is sent to a client, the whole packet is written to the log, its payload included."
  },
  {
   "property": "C125",
   "status": "proved",
   "theorems": [
    "Mercurio.C125_names"
   ],
   "note": "Identifiers are only compared. [C125_names] C125: client identifiers and packet identifiers are nothing but names to the server: if they are renamed throughout a history, different ones to different ones, then the server sends exactly the same packets at the same events, with the identifiers renamed in the same way."
  },
  {
   "property": "C126",
   "status": "proved",
   "theorems": [
    "Mercurio.C126_levels"
   ],
   "note": "Topics are only taken apart into levels and compared. [C126_levels] C126: the levels of topics are nothing but names to the server: if they are renamed throughout a history, in publications, wills, subscriptions and unsubscriptions, then the server sends exactly the same packets at the same events, with the topics renamed in the same way."
  },
  {
   "property": "C127",
   "status": "partial",
   "theorems": [
    "Mercurio.C127_shows_partial",
    "Mercurio.C127_forged_false",
    "Mercurio.C127_several_false"
   ],
   "note": "The output of the command line tool shows what arrived. [C127_shows_partial] C127, as far as it holds: if all payloads are texts of one line, and the topics they are given under are of one line and have no colon followed by a space in them, then what `mercurio sub` prints shows what has arrived, and in which order: what prints the same is the same. Missing: other messages (`C127_forged_false`). [C127_forged_false] C127 is false, in general: whatever two messages one would like to have shown, there is a single one that prints the same - any text for a payload, under any topic, can be followed by a line that looks like a message under any other topic. [C127_several_false] Nor does it say how many messages there were, without topics: a message of several lines prints like several messages."
  },
  {
   "property": "C128",
   "status": "partial",
   "theorems": [
    "Mercurio.C128_one_subscription_partial",
    "Mercurio.C128_accepted_in_order",
    "Mercurio.C128_overtaken_false",
    "Mercurio.C128_again_false"
   ],
   "note": "The messages of one client arrive in the order in which it sent them. [C128_one_subscription_partial] C128 (partial): a client on connection `c` subscribes to a valid filter `f`, and the subscription is left in place. What it is then sent for `f` are first retained messages, then messages published since. Each of these has a sender, and those of one sender come in the order in which that client sent them: they are among the PUBLISH packets that arrived on its connection `d`, in the same order. Missing, because it is false: messages that come by different subscriptions, see the next theorems. [C128_overtaken_false] C128 is false for messages that come by different subscriptions, in every state: a client has subscribed to `f` and `g` (no retained messages match), another client `d` publishes first to a topic that `f` matches and `g` does not, then to a topic that `g` matches. Then the server can send the second message before the first: it takes the waiting messages of the subscriptions in any order. [C128_again_false] C128 is false even for messages on one topic, if two filters of the subscriber match it, in every state: after the second message the first one can arrive again, by the other subscription, and nothing in the packets tells that it is the older one."
  },
  {
   "property": "C129",
   "status": "proved",
   "theorems": [
    "Mercurio.C129_subscribe",
    "Mercurio.C129_unsubscribe"
   ],
   "note": "It makes no difference how filters are grouped into packets. [C129_subscribe] C129: a client sends SUBSCRIBE packets one right after the other (at least one). The server is then in the same state as after one SUBSCRIBE with all their filters, whatever the packet identifiers, options and properties, and the codes in the answers, put together, are those of the answer to the one packet. So all that happens later is the same. [C129_unsubscribe] C129: a client sends UNSUBSCRIBE packets one right after the other (at least one). The server is then in the same state as after one UNSUBSCRIBE with all their filters, whatever the packet identifiers and properties, and the codes in the answers, put together, are those of the answer to the one packet. So all that happens later is the same."
  },
  {
   "property": "C130",
   "status": "partial",
   "theorems": [
    "Mercurio.C130_legal_partial",
    "Mercurio.C130_wildcard_false",
    "Mercurio.C130_auth_false",
    "Mercurio.C130_stream_partial"
   ],
   "note": "Whatever the server sends to an MQTT 5 client is a legal MQTT 5 packet. [C130_legal_partial] C130 (partial): if all clients speak MQTT 5 and obey the standard, then after every history (connections, crashes and restarts included) and for every event, every packet the server sends is a legal MQTT 5 packet that says what the server means, unless it is a message for a filter with wildcards. Missing, because it is false: messages for filters with wildcards, AUTH packets, and wills with QoS 1 or 2 (C87). [C130_wildcard_false] C130 is false for messages for a filter with wildcards: whatever the message, the packet the server sends is not a legal MQTT 5 packet, because its topic name contains the wildcards. [C130_auth_false] C130 is false for AUTH packets: none the server can send is a legal MQTT 5 packet, because the length of the properties is left out. [C130_stream_partial] C130 (partial): in any system of a server and built-in MQTT 5 clients with ordinary applications, all bytes the server has written to a connection are packets of MQTT 5 one after the other, and all of these are legal but for messages that name a filter with wildcards as their topic, which are legal but for that topic. Nothing is assumed about what the clients send, it follows from what the client library does; `Young5` bounds the turns of each client because its packet identifiers start again at 0 after 65535 requests (C131). Missing, because it is false: messages for filters with wildcards."
  },
  {
   "property": "C131",
   "status": "partial",
   "theorems": [
    "Mercurio.C131_connect",
    "Mercurio.C131_legal_partial",
    "Mercurio.C131_last",
    "Mercurio.C131_stream_partial",
    "Mercurio.C131_wildcard_false",
    "Mercurio.C131_empty_false",
    "Mercurio.C131_old_disconnect_false",
    "Mercurio.C131_old_publish_false",
    "Mercurio.C131_old_subscribe_false"
   ],
   "note": "Whatever the client library sends is a legal packet. [C131_legal_partial] C131: what a client of MQTT 5 sends after its CONNECT is a legal packet each time: the one that says what the call said, acknowledges the message received or pings; for all calls, all packets of the server and all orders of them. Missing: calls that ask for something illegal, which the client does not refuse (`C131_wildcard_false`, `C131_empty_false`); more than 65535 turns (then identifier 0 is used, `C57_zero_false`); clients of MQTT 3.1 and 3.1.1 (`C131_old_disconnect_false`, `C131_old_publish_false`, `C131_old_subscribe_false`). [C131_stream_partial] C131: in any system of a server and built-in clients, all that an MQTT 5 client has written to its connection is its CONNECT, followed by legal packets, each the one for a call, a message or a ping. Missing: as in `C131_legal_partial`. [C131_wildcard_false] C131 is false for topics with wildcards: the client sends them, and the packet is not legal. [C131_empty_false] C131 is false for requests that name no filter: the client sends them, and the packet is not legal. [C131_old_disconnect_false] C131 is false for clients of MQTT 3.1 and 3.1.1 (the version makes no difference after the CONNECT): their DISCONNECT is not a legal packet of those versions. [C131_old_publish_false] C131 is false for clients of MQTT 3.1 and 3.1.1: what they publish is read by a server of those versions with a zero byte in front of the payload. [C131_old_subscribe_false] C131 is false for clients of MQTT 3.1 and 3.1.1: their SUBSCRIBE and UNSUBSCRIBE are not legal packets of those versions (if the first filter has less than 256 bytes), because of the length of the properties in them."
  },
  {
   "property": "C132",
   "status": "partial",
   "theorems": [
    "Mercurio.C132_ends",
    "Mercurio.C132_prefix",
    "Mercurio.C132_answered_is_stored",
    "Mercurio.C132_all_or_nothing",
    "Mercurio.C132_wills",
    "Mercurio.C132_connect_others",
    "Mercurio.C132_resumption",
    "Mercurio.C132_subscriptions",
    "Mercurio.C132_messages",
    "Mercurio.C132_connack_false",
    "Mercurio.C132_old_will_false"
   ],
   "note": "A crash at any point loses nothing that was answered. [C132_connack_false] C132 is false for connection attempts: the CONNACK is written before the session is stored. For every server and every admitted client with a clean start, if the process dies right after the CONNACK then nothing of the session is stored: when the client comes back it is told that it has none. [C132_old_will_false] C132 is false for the removals of a clean start: the stored session is deleted first, the stored will after it. For every server with a stored will of a client, if the process dies between the two, the will outlives the clean start: the client comes back with a CONNECT without will, the server is restarted once more, the client comes back again and loses its connection; now the old will is published."
  },
  {
   "property": "C133",
   "status": "proved",
   "theorems": [
    "Mercurio.C133_refines",
    "Mercurio.C133_decided",
    "Mercurio.C133_bytes",
    "Mercurio.C133_decent"
   ],
   "note": "The server does what a plain broker does. [C133_refines] C133: whatever the clients do, as long as the wills they announce have valid topics, the server does what a plain broker does (which subscription gets which message, what is retained, kept and sent again, when a will is published), event by event and packet by packet. [C133_decided] The plain broker decides what is sent, up to the order of the messages sent again after a CONNECT, and it decides what it knows from then on, except when somebody connects or subscribes (where the order of retained messages and the number of a new account are open). [C133_bytes] C133 for bytes: whatever bytes clients send, in whatever chunks, what the server writes is explained by a run of the plain broker, as long as the wills it reads have valid topics. [C133_decent] C133 for clients that keep to the rules."
  },
  {
   "property": "C134",
   "status": "proved",
   "theorems": [
    "Mercurio.C134_order"
   ],
   "note": "Whom the server serves first matters only to those who share a topic. [C134_order] C134: whom the server serves first makes no difference, unless they have to do with each other. After every history, take an event of one client and an event of another one (packets, messages sent, ends of connections), that publish nothing to the same topic or subscription and nothing the other is about to look at. In either order, each of them is answered the same, and what the server knows afterwards is the same: the same state of the plain broker explains all that happens from then on."
  },
  {
   "property": "C135",
   "status": "proved",
   "theorems": [
    "Mercurio.C135_alone",
    "Mercurio.C135_bytes"
   ],
   "note": "Clients that nobody in a group listens to make no difference to the group. [C135_alone] C135: clients that nobody in a group listens to make no difference to the group. In every history in which the others have names of their own and publish (also as will) nothing that matches a filter the group subscribes to, what the group is sent is what a plain broker may send that serves the group alone. (The others may listen to the group.) [C135_bytes] C135 for bytes: in every run of the server on byte streams in which the clients mean to say things that keep a group apart from the others, what is written to the group is explained by a run of the plain broker with events of the group only."
  },
  {
   "property": "C136",
   "status": "proved",
   "theorems": [
    "Mercurio.C136_aborts_iff",
    "Mercurio.C136_server",
    "Mercurio.C136_connect",
    "Mercurio.C136_client"
   ],
   "note": "Writing a packet crashes neither the server nor the client. [C136_aborts_iff] C136: writing a packet aborts exactly if one of its property blocks has a subscription identifier of 2^28 or more, or a length that does not fit into a length field; otherwise it succeeds. [C136_server] C136 for the server: whatever has happened and whatever happens next, every packet the server sends can be written. (The client identifiers it makes up are UUIDs, well below 65536 bytes.) [C136_connect] C136 for the client's CONNECT: it can be written, whatever the options. [C136_client] C136 for the client: every packet a turn of the client sends can be written, and if the loop ends in a turn, it is not because of writing: the turn had nothing to write, or was the application's `disconnect`, or a ping the socket did not take."
  },
  {
   "property": "C137",
   "status": "proved",
   "theorems": [
    "Mercurio.C137_stream",
    "Mercurio.C137_over",
    "Mercurio.C137_client"
   ],
   "note": "Each side introduces itself once, first, and stops when it says so. [C137_stream] C137: whatever bytes the clients send and whatever happens, what the server has written on a connection is nothing, or a CONNACK with an error, after which the connection is over, or a CONNACK that reports success and then packets that may follow it: there is no second CONNACK, and nothing is written before it. (The identifiers the server makes up have at most 65535 bytes.) [C137_over] C137: once a connection is over the server writes nothing more on it, and reads nothing more, whatever happens. [C137_client] C137 for the client: whatever the application calls and whatever arrives, a connected client writes only packets that may follow its CONNECT (so no second CONNECT), and nothing after a DISCONNECT."
  },
  {
   "property": "C138",
   "status": "proved",
   "theorems": [
    "Mercurio.C138_answers",
    "Mercurio.C138_all_answered",
    "Mercurio.C138_stream",
    "Mercurio.C138_all_answered_stream",
    "Mercurio.C138_bounded"
   ],
   "note": "Every answer answers a packet, in order, and none is missing. [C138_answers] C138: in any history, from any state of the server, what it sends on a connection besides messages are answers, each to another packet read on that connection, in the order of these packets, of the kind the packet asks for and with its identifier. [C138_all_answered] C138: as long as a connection is open no answer is missing: in any history, from any state of the server that can come about, at the end of which the connection is still open, the answers sent on it are those to all the packets read on it that ask for one, in order. [C138_stream] C138 on byte streams: whatever the clients do and in whatever chunks the bytes arrive, the bytes written to a client are the encodings of packets which, messages aside, answer packets of this client, each another one, in the order in which it sent them. [C138_all_answered_stream] C138 on byte streams: as long as a connection is open, whatever bytes have arrived on any connection, the bytes written on it are the encodings of packets which, messages aside, are the answers to all the packets the server has read on it that ask for one, in order. [C138_bounded] C138: the server does not answer more than it is sent: there are at most as many packets read on a connection, and so at most as many answers while it is open, as bytes have been received on it."
  }
 ]
}