{"id": "C01", "title": "Live routing finds exactly the matching plain subscriptions", "statement": "After any history of SUBSCRIBE/UNSUBSCRIBE effects on the routing table, looking a topic name up yields, for every plain (non-shared) topic filter that some client is currently subscribed to, that filter exactly once if and only if the filter matches the topic name by the MQTT rules (levels equal, '+' one level, trailing '#' zero or more levels, '#' also matching the parent), together with exactly the clients currently subscribed to it and the QoS each one was last granted.", "quantifier": "every finite sequence of subscribe/unsubscribe operations by any clients on any valid filters (plain and shared mixed), and every valid topic name", "why_tests_cant": "The set of filters, topics and histories is infinite and the trie shares nodes between filters; tests sample a handful of filters.", "anchors": ["akasa-core/src/protocols/mqtt/route.rs: RouteTable::get_matches, RouteTable::subscribe, RouteTable::unsubscribe, RouteNode::get_matches, RouteNode::insert, RouteNode::remove"]}
{"id": "C02", "title": "Filters that begin with a wildcard never see '$' topics", "statement": "A topic name that begins with '$' is never matched by a subscription whose first character is '+' or '#', neither for live messages nor when retained messages are looked up for a new subscription, while a filter that names the '$' level literally still matches.", "quantifier": "every table state reachable by any history, every filter and every topic", "why_tests_cant": "The exclusion has to survive every trie shape and both lookup directions.", "anchors": ["akasa-core/src/protocols/mqtt/route.rs: RouteTable::get_matches", "akasa-core/src/protocols/mqtt/retain.rs: RetainTable::get_matches, RetainNode::get_matches"]}
{"id": "C03", "title": "Unsubscribe is precise and the routing table does not leak", "statement": "Unsubscribing a client from a filter removes exactly that (client, filter) subscription and no other one, and the routing table contains a node for a level path only if some current subscription's filter goes through it; when nobody is subscribed the table is empty.", "quantifier": "every history of subscribe/unsubscribe operations on valid plain filters", "why_tests_cant": "Node pruning depends on the whole set of filters sharing prefixes; leaks and over-pruning only show for particular interleavings.", "anchors": ["akasa-core/src/protocols/mqtt/route.rs: RouteNode::remove, RouteTable::unsubscribe_shared"]}
{"id": "C04", "title": "A shared subscription group always selects one current member", "statement": "For each shared group with at least one member, selecting a recipient by any number returns a client that is currently a member of the group, with the QoS it was last granted, every current member is selected by some number, and no operation on the group panics.", "quantifier": "every history of joins and leaves of one group and every selection number", "why_tests_cant": "The group is stored as a vector plus an index map kept in step by swap-removal; correctness is an invariant over unbounded histories.", "anchors": ["akasa-core/src/protocols/mqtt/route.rs: SharedClients::insert, SharedClients::remove, SharedClients::get_by_number, SharedClients::get_by_hash"]}
{"id": "C05", "title": "Leaving a shared group leaves the other members in place", "statement": "When a member leaves a shared group, all other members stay members with the QoS they had, and the leaving client is no longer a member; a client that is not a member leaving changes nothing.", "quantifier": "every history of joins and leaves of one group", "why_tests_cant": "Needs an invariant relating the vector positions and the index after arbitrary swap-removals.", "anchors": ["akasa-core/src/protocols/mqtt/route.rs: SharedClients::remove"]}
{"id": "C06", "title": "The retained store keeps the latest retained message of each topic", "statement": "After any history of retained publishes, the retained message of a topic is the payload of the last retained publish to it, and there is none if the last one had an empty payload or there was none; publishes to other topics have no influence.", "quantifier": "every finite history of retained publishes to any valid topic names", "why_tests_cant": "Topics share trie prefixes and removal prunes nodes, so correctness is a statement about all histories.", "anchors": ["akasa-core/src/protocols/mqtt/retain.rs: RetainTable::insert, RetainTable::remove, RetainNode::insert, RetainNode::remove", "akasa-core/src/protocols/mqtt/v3/packet/publish.rs: send_publish", "akasa-core/src/protocols/mqtt/v5/packet/publish.rs: send_publish"]}
{"id": "C07", "title": "Retained lookup returns exactly the retained messages matching the filter", "statement": "Looking up a valid topic filter returns every currently retained message whose topic matches the filter by the MQTT rules, each exactly once and nothing else; in particular live routing and retained lookup agree on which topics a filter matches.", "quantifier": "every history of retained publishes, every valid filter", "why_tests_cant": "Two independently written matchers (one walking the topic, one walking the filter) must agree on all inputs.", "anchors": ["akasa-core/src/protocols/mqtt/retain.rs: RetainTable::get_matches, RetainNode::get_matches", "akasa-core/src/protocols/mqtt/route.rs: RouteTable::get_matches"]}
{"id": "C08", "title": "The retained store does not leak", "statement": "After any history, the retained store contains a node for a level path only if some currently retained topic goes through it; once every retained message has been cleared the store is empty.", "quantifier": "every history of retained publishes and clears", "why_tests_cant": "Pruning correctness is about all interleavings of topics with shared prefixes.", "anchors": ["akasa-core/src/protocols/mqtt/retain.rs: RetainNode::remove, RetainNode::is_empty"]}
{"id": "C09", "title": "The outgoing queue of a session is bounded", "statement": "A session never holds more QoS1/QoS2 messages waiting for transmission or acknowledgement than the configured maximum; when the queue is full a new message is refused and the queue is unchanged.", "quantifier": "every sequence of queueing, sending, acknowledging, reconnecting and every clock", "why_tests_cant": "Bound must hold in every reachable state.", "anchors": ["akasa-core/src/protocols/mqtt/pending.rs: PendingPackets::push_back, clean_complete"]}
{"id": "C10", "title": "The client's receive maximum is respected", "statement": "On one connection the number of QoS1/QoS2 PUBLISH packets that the broker has sent and that are not yet acknowledged (PUBACK or PUBCOMP) never exceeds the receive maximum of the client.", "quantifier": "every sequence of queueing, sending and acknowledging on one connection, every acknowledgement order, every clock", "why_tests_cant": "Acknowledgements arrive in any order and completed entries stay in the middle of the queue; the bound is an invariant.", "anchors": ["akasa-core/src/protocols/mqtt/pending.rs: PendingPackets::get_ready_packet, pubrec, complete, clean_complete", "akasa-core/src/protocols/mqtt/v3/packet/common.rs: handle_pendings", "akasa-core/src/protocols/mqtt/v5/packet/common.rs: handle_pendings"]}
{"id": "C11", "title": "DUP is 0 on the first transmission and 1 on every later one", "statement": "The first time a queued message is transmitted its DUP flag is 0; each retransmission carries DUP 1, the same packet identifier, QoS, topic and payload.", "quantifier": "every run of a session over any number of connections, timeouts and acknowledgements", "why_tests_cant": "Retransmissions depend on timing and reconnects; tests cover a few schedules.", "anchors": ["akasa-core/src/protocols/mqtt/v3/packet/common.rs: handle_pendings", "akasa-core/src/protocols/mqtt/v5/packet/common.rs: handle_pendings", "akasa-core/src/protocols/mqtt/pending.rs: PendingPacketStatus"]}
{"id": "C12", "title": "After PUBREC the message itself is never sent again", "statement": "Once a PUBREC for a queued message has been processed the broker never sends that PUBLISH again; it sends only PUBREL for it, and after the acknowledgement that completes it nothing at all is sent for it.", "quantifier": "every later sequence of operations, on this or later connections of the session", "why_tests_cant": "Must hold for every continuation, not just the tested ones.", "anchors": ["akasa-core/src/protocols/mqtt/pending.rs: PendingPackets::pubrec, complete", "akasa-core/src/protocols/mqtt/v3/packet/common.rs: handle_pendings", "akasa-core/src/protocols/mqtt/v5/packet/common.rs: handle_pendings"]}
{"id": "C13", "title": "First transmissions happen in the order the messages were queued", "statement": "For a session, the QoS1/QoS2 messages are transmitted for the first time in exactly the order in which they were accepted into its queue, and on every pass retransmissions are in that order too.", "quantifier": "every sequence of queueing, sending, acknowledging and reconnecting, every clock", "why_tests_cant": "Ordering under arbitrary acknowledgement orders and window movement is an inductive property.", "anchors": ["akasa-core/src/protocols/mqtt/pending.rs", "akasa-core/src/protocols/mqtt/v3/packet/common.rs: handle_pendings", "akasa-core/src/protocols/mqtt/v5/packet/common.rs: handle_pendings"]}
{"id": "C14", "title": "A queued message is kept until it is acknowledged", "statement": "A message accepted into the queue of a session stays in it, unchanged, until the client acknowledges its packet identifier (PUBACK, or PUBREC followed by PUBCOMP) or, for MQTT 5, until it expires before its first transmission; acknowledgements for other packet identifiers, reconnects and timeouts never remove it.", "quantifier": "every sequence of operations and every clock", "why_tests_cant": "At-least-once delivery is a statement about all schedules and acknowledgement sequences.", "anchors": ["akasa-core/src/protocols/mqtt/pending.rs: complete, pubrec, clean_complete, reset_last_sent", "akasa-core/src/protocols/mqtt/v5/packet/common.rs: handle_pendings"]}
{"id": "C15", "title": "Everything unacknowledged in the window is retransmitted on reconnect", "statement": "When a client resumes its session, the first sending pass retransmits every unacknowledged message of the window in queue order (PUBLISH with DUP for those sent before, PUBREL for those already PUBRECed); within one connection nothing is retransmitted before the inflight timeout has elapsed.", "quantifier": "every queue content reachable by any history and every receive maximum", "why_tests_cant": "Quantifies over all queue states at the moment of reconnect.", "anchors": ["akasa-core/src/protocols/mqtt/pending.rs: reset_last_sent, get_ready_packet", "akasa-core/src/protocols/mqtt/v3/packet/connect.rs: handle_connect", "akasa-core/src/protocols/mqtt/v5/packet/connect.rs: session_connect"]}
{"id": "C16", "title": "An acknowledging client drains its queue", "statement": "If the client acknowledges what it receives, the queue empties: each sending pass plus acknowledgement of everything sent completes at least the whole window, so after finitely many rounds every queued message has been transmitted and the queue is empty.", "quantifier": "every reachable queue state and every positive receive maximum", "why_tests_cant": "A liveness statement over unbounded queues.", "anchors": ["akasa-core/src/protocols/mqtt/pending.rs", "akasa-core/src/protocols/mqtt/v3/packet/common.rs: handle_pendings"]}
{"id": "C17", "title": "Packet identifiers of pending messages are distinct and non-zero", "statement": "The packet identifiers the broker assigns are never 0 and no two messages that are pending at the same time in a session share an identifier.", "quantifier": "every history of messages queued, dropped and acknowledged in a session", "why_tests_cant": "Identifier wrap-around needs more than 65535 messages.", "anchors": ["akasa-core/src/protocols/mqtt/v3/session.rs: incr_server_packet_id", "akasa-core/src/protocols/mqtt/v5/session.rs: incr_server_packet_id", "akasa-core/src/protocols/mqtt/v3/packet/publish.rs: recv_publish", "akasa-core/src/protocols/mqtt/v5/packet/publish.rs: recv_publish"]}
{"id": "C18", "title": "Expired messages are not sent and the expiry interval is decreased (MQTT 5)", "statement": "A queued MQTT 5 message whose expiry interval has elapsed before its first transmission is never transmitted; every transmitted message carries the original interval minus the whole seconds it has waited in the queue (never more than the original, at least 0).", "quantifier": "every queue state, expiry interval and clock reading", "why_tests_cant": "Ranges over all clocks and all queue positions.", "anchors": ["akasa-core/src/protocols/mqtt/v5/packet/common.rs: handle_pendings"]}
{"id": "C19", "title": "A QoS 2 message is passed on at most once per packet-identifier use", "statement": "Between two PUBRELs for a packet identifier, the messages received with QoS 2 and that identifier are handed to routing at most once, whatever other packets arrive in between and however often the client retransmits, also across reconnects of the same session.", "quantifier": "every sequence of packets received in a session (v3 and v5)", "why_tests_cant": "Ranges over all packet sequences.", "anchors": ["akasa-core/src/protocols/mqtt/v3/packet/publish.rs: handle_publish, handle_pubrel", "akasa-core/src/protocols/mqtt/v5/packet/publish.rs: handle_publish, handle_pubrel"]}
{"id": "C20", "title": "A QoS 2 message that is acknowledged with PUBREC success has been passed on", "statement": "Whenever the broker answers a QoS 2 PUBLISH with a successful PUBREC, that message has been handed to routing once since the packet identifier was last released.", "quantifier": "every sequence of packets received in a session (v3 and v5)", "why_tests_cant": "Ranges over all packet sequences, including retransmission of messages the broker never received.", "anchors": ["akasa-core/src/protocols/mqtt/v3/packet/publish.rs: handle_publish", "akasa-core/src/protocols/mqtt/v5/packet/publish.rs: handle_publish"]}
{"id": "C21", "title": "The number of unreleased incoming QoS 2 messages is bounded (MQTT 5)", "statement": "An MQTT 5 session never stores more unreleased incoming QoS 2 packet identifiers than the configured receive maximum of the server; the client that exceeds it is disconnected and the message is not routed.", "quantifier": "every sequence of packets received in a session", "why_tests_cant": "Invariant over all packet sequences.", "anchors": ["akasa-core/src/protocols/mqtt/v5/packet/publish.rs: handle_publish, handle_pubrel"]}
{"id": "C22", "title": "Clients cannot publish to '$' topics", "statement": "No message published by a client (directly, by topic alias or as will) whose effective topic name begins with '$' is ever routed or retained.", "quantifier": "every sequence of packets of a connection", "why_tests_cant": "Topic aliases make the effective topic depend on the history of the connection.", "anchors": ["akasa-core/src/protocols/mqtt/v3/packet/publish.rs: handle_publish", "akasa-core/src/protocols/mqtt/v5/packet/publish.rs: handle_publish", "akasa-core/src/protocols/mqtt/v3/packet/connect.rs: handle_connect", "akasa-core/src/protocols/mqtt/v5/packet/connect.rs: handle_connect"]}
{"id": "C23", "title": "Incoming topic aliases resolve to the topic last bound by the same connection", "statement": "A PUBLISH with an empty topic and alias a is routed under exactly the topic name of the latest earlier PUBLISH of the same connection that carried alias a with a non-empty topic; alias 0, an alias above the advertised maximum, an unbound alias, and an empty topic without alias lead to a disconnect with nothing routed.", "quantifier": "every sequence of packets of a connection", "why_tests_cant": "Depends on the full history of alias bindings.", "anchors": ["akasa-core/src/protocols/mqtt/v5/packet/publish.rs: handle_publish"]}
{"id": "C24", "title": "Outgoing topic aliases always decode to the right topic", "statement": "A client that follows the MQTT 5 rules for topic aliases and receives the PUBLISH packets the broker sends on a connection decodes every packet to the topic name of the message; every alias used lies between 1 and the maximum the client announced, and the tables never hold more than that many aliases.", "quantifier": "every sequence of topics sent on a connection and every alias maximum", "why_tests_cant": "Least-recently-used replacement over unbounded sequences, two maps kept mutually inverse.", "anchors": ["akasa-core/src/protocols/mqtt/v5/packet/common.rs: get_or_assign_server_topic_alias, handle_pendings", "akasa-core/src/protocols/mqtt/v5/packet/publish.rs: recv_publish"]}
{"id": "C25", "title": "Every acknowledgement answers the packet that caused it", "statement": "An accepted PUBLISH is answered by nothing (QoS 0), by exactly one PUBACK (QoS 1) or exactly one PUBREC (QoS 2) with its packet identifier; in MQTT 5 the reason is NoMatchingSubscribers exactly if no subscription matches; PUBREC is answered by PUBREL and PUBREL by PUBCOMP with the same identifier and the correct reason code.", "quantifier": "every session state and every packet", "why_tests_cant": "Ranges over all states and packets.", "anchors": ["akasa-core/src/protocols/mqtt/v3/packet/publish.rs", "akasa-core/src/protocols/mqtt/v5/packet/publish.rs"]}
{"id": "C26", "title": "A published message goes to exactly the subscribed clients", "statement": "When a client publishes, the set of clients a copy is queued for is exactly the set of registered clients with a matching plain subscription (minus the publisher's own no-local subscriptions for MQTT 5) plus, for an MQTT 5 publisher, one member of every matching shared group.", "quantifier": "every reachable routing table, every publisher and topic", "why_tests_cant": "Ranges over all subscription sets.", "anchors": ["akasa-core/src/protocols/mqtt/v3/packet/publish.rs: send_publish", "akasa-core/src/protocols/mqtt/v5/packet/publish.rs: send_publish"]}
{"id": "C27", "title": "Overlapping subscriptions of a client get one copy with the highest granted QoS (MQTT 5 publisher)", "statement": "For a message published over MQTT 5, each receiving client gets exactly one copy, carrying all of its matching filters, with the granted QoS equal to the maximum over them.", "quantifier": "every reachable routing table and topic", "why_tests_cant": "Ranges over all sets of overlapping subscriptions.", "anchors": ["akasa-core/src/protocols/mqtt/v5/packet/publish.rs: send_publish"]}
{"id": "C28", "title": "No-local subscriptions never echo the client's own messages", "statement": "A client never receives a message it published itself through a plain subscription made with the no-local option, neither live nor as a retained message at subscribe time, unless another of its matching subscriptions lacks the option.", "quantifier": "every session state, subscription set and topic", "why_tests_cant": "Ranges over all subscription sets.", "anchors": ["akasa-core/src/protocols/mqtt/v5/packet/publish.rs: send_publish", "akasa-core/src/protocols/mqtt/v5/packet/subscribe.rs: handle_subscribe"]}
{"id": "C29", "title": "Delivered QoS is the minimum of published and granted QoS", "statement": "Every message handed to a client, live or retained, has QoS equal to the minimum of the QoS it was published with and the QoS granted for the subscription; QoS 0 results are sent directly and only while connected, QoS 1 and 2 results are queued whether or not the client is connected.", "quantifier": "every message, subscription and session state", "why_tests_cant": "Ranges over all messages and session states, online and offline.", "anchors": ["akasa-core/src/protocols/mqtt/v3/packet/publish.rs: recv_publish", "akasa-core/src/protocols/mqtt/v5/packet/publish.rs: recv_publish"]}
{"id": "C30", "title": "Subscription identifiers delivered are those of the matching current subscriptions (MQTT 5)", "statement": "A PUBLISH sent to an MQTT 5 client because of live subscriptions carries exactly the subscription identifiers of those matching filters the client is still subscribed to at the time of delivery, and the message is dropped if none of them is left.", "quantifier": "every delivered message and every state of the receiving session", "why_tests_cant": "The subscriptions may change between routing and delivery.", "anchors": ["akasa-core/src/protocols/mqtt/v5/message.rs: handle_normal"]}
{"id": "C31", "title": "A message is dropped only if none of its matching subscriptions is left (v3 receiver)", "statement": "A message routed to an MQTT 3 client because of several of its filters is delivered as long as the client is still subscribed to at least one of them.", "quantifier": "every delivered message and every state of the receiving session", "why_tests_cant": "The subscriptions may change between routing and delivery.", "anchors": ["akasa-core/src/protocols/mqtt/v3/message.rs: handle_normal"]}
{"id": "C32", "title": "SUBACK lists one result per requested filter and rejected filters have no effect", "statement": "The answer to SUBSCRIBE contains exactly one code per requested filter in request order; a granted code is the minimum of the requested and the configured maximum QoS; filters that are refused (shared or wildcard subscriptions disabled, identifiers not supported) change neither the session nor the routing table.", "quantifier": "every SUBSCRIBE packet, configuration and state", "why_tests_cant": "Ranges over all packets and configurations.", "anchors": ["akasa-core/src/protocols/mqtt/v3/packet/subscribe.rs: handle_subscribe", "akasa-core/src/protocols/mqtt/v5/packet/subscribe.rs: handle_subscribe"]}
{"id": "C33", "title": "A session's subscription list and the routing table agree", "statement": "At every moment a session's own list of subscriptions contains a filter with a granted QoS exactly if the routing table has that client subscribed to that filter with that QoS, and UNSUBACK reports success exactly for filters that were subscribed.", "quantifier": "every sequence of SUBSCRIBE and UNSUBSCRIBE packets by any number of sessions", "why_tests_cant": "Invariant over interleavings of many sessions on a shared table.", "anchors": ["akasa-core/src/protocols/mqtt/v3/packet/subscribe.rs", "akasa-core/src/protocols/mqtt/v5/packet/subscribe.rs", "akasa-core/src/protocols/mqtt/route.rs"]}
{"id": "C34", "title": "Retained messages sent on SUBSCRIBE obey retain handling", "statement": "On an accepted SUBSCRIBE the retained messages matching the filter are sent exactly if retained messages are available, the filter is not shared, and (MQTT 5) the retain-handling option says so given whether the subscription already existed; each matching retained message is sent once per filter with the minimum QoS.", "quantifier": "every SUBSCRIBE packet, retained store and session state", "why_tests_cant": "Ranges over all option combinations and stores.", "anchors": ["akasa-core/src/protocols/mqtt/v3/packet/subscribe.rs: handle_subscribe", "akasa-core/src/protocols/mqtt/v5/packet/subscribe.rs: handle_subscribe"]}
{"id": "C35", "title": "Internal client ids are never reused and identify one MQTT client identifier", "statement": "The registry never hands out the same internal id twice, an MQTT client identifier maps to at most one internal id, the two directions of the mapping are inverse to each other, and every registered client has a message queue to send to.", "quantifier": "every sequence of connects, disconnects and removals", "why_tests_cant": "Invariant over unbounded histories; a reused id would route messages to the wrong client.", "anchors": ["akasa-core/src/state.rs: GlobalState::add_client, remove_client, offline_client"]}
{"id": "C36", "title": "Removing a client affects only that client", "statement": "Removing one client deletes its registration and exactly its own subscriptions; the registrations, queues and subscriptions of all other clients are unchanged, removal is idempotent, and looking up any other client gives the same result as before.", "quantifier": "every registry state and every client", "why_tests_cant": "Ranges over all states.", "anchors": ["akasa-core/src/state.rs: GlobalState::remove_client"]}
{"id": "C37", "title": "The online-client counter equals the number of online clients", "statement": "The reported number of online clients always equals the number of registered clients marked online, and it never goes below zero.", "quantifier": "every sequence of connects, take-overs, disconnects and removals", "why_tests_cant": "Counter drift only shows after particular sequences.", "anchors": ["akasa-core/src/state.rs: add_client, remove_client, offline_client, online_clients_count"]}
{"id": "C38", "title": "At most one connection owns a session", "statement": "At any time at most one connection or offline task owns the session of a client identifier; a new connection obtains the session only after the previous owner has handed its state over and stopped.", "quantifier": "every interleaving of connection attempts, take-overs, disconnects, expiries and kicks", "why_tests_cant": "A statement about all interleavings.", "anchors": ["akasa-core/src/state.rs: add_client", "akasa-core/src/protocols/mqtt/v3/message.rs: handle_online, handle_offline, handle_control", "akasa-core/src/protocols/mqtt/v5/message.rs: handle_online, handle_offline, handle_control"]}
{"id": "C39", "title": "Session resumption keeps all session state", "statement": "When a client reconnects without requesting a clean session (and with the same protocol version), CONNACK reports session present and the subscriptions, queued messages, packet identifier counter and unreleased QoS 2 identifiers are those of the old session; with a clean session none of them is visible and session present is false.", "quantifier": "every old session state and every CONNECT packet", "why_tests_cant": "Ranges over all session states.", "anchors": ["akasa-core/src/protocols/mqtt/v3/packet/connect.rs: handle_connect", "akasa-core/src/protocols/mqtt/v5/packet/connect.rs: session_connect", "akasa-core/src/protocols/mqtt/v3/message.rs: build_state", "akasa-core/src/protocols/mqtt/v5/message.rs: build_state"]}
{"id": "C40", "title": "A stale expiry or will timer never touches a newer connection's session (MQTT 5)", "statement": "A session-expiry or will-delay timer started for one connection has no effect once the session has been resumed by a later connection; an offline session is removed by the expiry timer of its own last connection only.", "quantifier": "every sequence of disconnects, resumes and timer firings", "why_tests_cant": "A race between timers and reconnects, over all schedules.", "anchors": ["akasa-core/src/protocols/mqtt/v5/message.rs: handle_control, handle_connection, handle_will"]}
{"id": "C41", "title": "The will is published exactly when the connection ends abnormally", "statement": "A will message is published at most once per connection; it is never published after a normal DISCONNECT; it is published if the connection ends by network error, keep-alive timeout or protocol error: at once, or, for MQTT 5 with a will delay, when the delay or the session ends, unless another connection of the client takes the session before.", "quantifier": "every way a connection can end and every session state", "why_tests_cant": "Ranges over all endings and interleavings.", "anchors": ["akasa-core/src/protocols/mqtt/v3/message.rs: handle_online, handle_will", "akasa-core/src/protocols/mqtt/v5/message.rs: handle_online, handle_will, send_will", "akasa-core/src/protocols/mqtt/v5/packet/connect.rs: handle_disconnect"]}
{"id": "C42", "title": "Keep-alive: silent clients are closed, live ones are not", "statement": "A client that sends at least one packet in every period of one and a half keep-alive intervals is never closed by its own keep-alive timer, and a client that is silent is closed no later than two keep-alive intervals after its last packet; keep-alive 0 disables the check.", "quantifier": "every keep-alive value and every schedule of packets", "why_tests_cant": "Ranges over all schedules.", "anchors": ["akasa-core/src/protocols/mqtt/common.rs: start_keep_alive_timer"]}
{"id": "C43", "title": "Bytes on the wire are the encoded packets in order", "statement": "Whatever portions the transport accepts per write, the bytes written to a connection are always a prefix of the concatenation of the encodings of the packets queued for it, in queueing order, and when the write queue is empty they are the whole concatenation.", "quantifier": "every sequence of packets queued and every sequence of partial, blocked or failing writes", "why_tests_cant": "All splittings of the byte stream cannot be tested.", "anchors": ["akasa-core/src/protocols/mqtt/online_loop.rs: OnlineLoop::poll (write loop and draining)"]}
{"id": "C44", "title": "Messages fanned out to other sessions are neither lost, duplicated nor reordered per receiver", "statement": "While a publisher's connection lives, each copy queued for a receiver is delivered to the receiver's inbox exactly once and in order, or dropped because that receiver is gone; the number of outstanding copies reported equals the number really queued, and the internal consistency check on it never fails.", "quantifier": "every interleaving of publishing and of receivers accepting, blocking or disappearing", "why_tests_cant": "All schedules of back-pressure.", "anchors": ["akasa-core/src/protocols/mqtt/online_loop.rs: OnlineLoop::poll (broadcast part)", "akasa-core/src/protocols/mqtt/v3/packet/publish.rs: send_publish", "akasa-core/src/protocols/mqtt/v5/packet/publish.rs: send_publish"]}
{"id": "C45", "title": "PROXY protocol headers are parsed faithfully and totally", "statement": "Every well-formed PROXY v2 header (stream or datagram over IPv4, IPv6 or Unix addresses, with at most 256 bytes of valid extension fields fitting the listener's TLS mode) is accepted with exactly the protocol and the source and destination addresses it encodes, and exactly its bytes are consumed; the bare LOCAL header is accepted as a health check; every other byte sequence is refused with an error, never a crash.", "quantifier": "every byte sequence and every address pair", "why_tests_cant": "Infinite input space.", "anchors": ["akasa-core/src/server/proxy.rs: parse_header, parse_addresses, parse_tlvs"]}
{"id": "C46", "title": "The TLS mode of the PROXY header is enforced", "statement": "A listener configured for TLS termination at the proxy accepts only headers that carry both the SSL and the authority TLV and reports exactly the authority sent; a listener without it refuses headers carrying either of them.", "quantifier": "every TLV sequence", "why_tests_cant": "Infinite input space.", "anchors": ["akasa-core/src/server/proxy.rs: parse_tlvs"]}
{"id": "C47", "title": "Password check accepts exactly the configured password hashes", "statement": "check_password succeeds exactly if the user exists and the hash of the given password with the stored salt, algorithm and iteration count equals the stored hash; a password just stored with the insert-password command is accepted.", "quantifier": "every password table, user, password, salt and algorithm", "why_tests_cant": "Ranges over all inputs.", "anchors": ["akasa-core/src/protocols/mqtt/auth.rs: check_password, hash_password", "akasa/src/main.rs: InsertPassword"]}
{"id": "C48", "title": "The password file survives a dump and load", "statement": "Writing a password table to a file and loading it again yields the same table.", "quantifier": "every password table", "why_tests_cant": "Usernames are arbitrary strings.", "anchors": ["akasa-core/src/protocols/mqtt/auth.rs: load_passwords, dump_passwords"]}
{"id": "C49", "title": "SCRAM authenticates exactly those who prove knowledge of the stored password", "statement": "The SCRAM server reports success only for a client-final message that follows a client-first on the same exchange, repeats the combined nonce and the header, and contains the proof computed from the stored salted password over the whole exchange; an honest client with the right password is accepted and accepts the server's signature; out-of-order messages never authenticate.", "quantifier": "every sequence of messages, nonce, salt, iteration count and password", "why_tests_cant": "A security property over all message sequences.", "anchors": ["akasa-core/src/protocols/scram/server.rs", "akasa-core/src/protocols/scram/client.rs", "akasa-core/src/protocols/scram/mod.rs: find_proofs"]}
{"id": "C50", "title": "No session without valid credentials when authentication is on", "statement": "With authentication enabled, a connection reaches the connected state only if its CONNECT carried a user name and password accepted by the password check, or (MQTT 5) it completed the SCRAM exchange successfully.", "quantifier": "every CONNECT packet, AUTH exchange and configuration", "why_tests_cant": "A security property over all inputs.", "anchors": ["akasa-core/src/protocols/mqtt/v3/packet/connect.rs: handle_connect", "akasa-core/src/protocols/mqtt/v5/packet/connect.rs: handle_connect, handle_auth"]}
{"id": "C51", "title": "A message, subscription or unsubscription refused by a hook has no effect", "statement": "If the before-publish, before-subscribe or before-unsubscribe hook returns anything but success, routing, retained store, session subscriptions and queues are unchanged and the client gets the corresponding refusal: for MQTT 5 a PUBACK/PUBREC/SUBACK/UNSUBACK with that code for every item, for MQTT 3 the connection is closed.", "quantifier": "every packet, hook answer and state", "why_tests_cant": "Hooks are user code; the property ranges over all answers.", "anchors": ["akasa-core/src/hook.rs: handle_request"]}
{"id": "C52", "title": "A valid configuration never makes the broker panic on QoS settings", "statement": "If the configuration passes validation, computing the maximum allowed QoS never panics and equals the configured number, and the advertised limits are in the ranges MQTT requires.", "quantifier": "every configuration", "why_tests_cant": "Ranges over all configurations.", "anchors": ["akasa-core/src/config.rs: Config::is_valid, max_allowed_qos"]}
{"id": "C53", "title": "The WebSocket transport is a faithful byte stream", "statement": "The bytes read from a WebSocket connection are exactly the concatenation of the payloads of the binary messages received, in order, for any sizes of the reads; text and other unexpected frames end the stream with an error.", "quantifier": "every sequence of frames and read sizes", "why_tests_cant": "All splittings of the stream cannot be tested.", "anchors": ["akasa-core/src/server/mod.rs: WebSocketWrapper::poll_read, poll_write"]}
{"id": "C54", "title": "The incoming packet size limit is enforced", "statement": "A packet larger than the configured maximum packet size is never processed: the connection is closed (MQTT 3) or disconnected with PacketTooLarge (MQTT 5) and no state except the connection flags changes.", "quantifier": "every packet and session state", "why_tests_cant": "Ranges over all packets.", "anchors": ["akasa-core/src/protocols/mqtt/v3/message.rs: handle_packet", "akasa-core/src/protocols/mqtt/v5/message.rs: handle_packet"]}
{"id": "C55", "title": "Packets larger than the client's maximum packet size are not sent (MQTT 5)", "statement": "No PUBLISH whose encoded size exceeds the maximum packet size announced by the client is sent to it.", "quantifier": "every message and session state", "why_tests_cant": "Ranges over all messages, aliases and subscription identifiers.", "anchors": ["akasa-core/src/protocols/mqtt/v5/packet/publish.rs: recv_publish", "akasa-core/src/protocols/mqtt/v5/packet/common.rs: handle_pendings"]}
{"id": "C56", "title": "Accepted QoS 1/2 messages reach every subscribed session's queue end to end", "statement": "In the composed system of publisher session, per-receiver transfer queues, bounded inboxes and receiver sessions, every copy of an accepted message for a receiver that stays registered and subscribed is at any time in exactly one place on its way, and once all transfers have drained it has been queued in, or sent by, the receiver's session exactly once and in publishing order.", "quantifier": "every interleaving of publishers and receivers", "why_tests_cant": "A global conservation law over all schedules.", "anchors": ["akasa-core/src/protocols/mqtt/v3/packet/publish.rs: send_publish, recv_publish", "akasa-core/src/protocols/mqtt/v5/packet/publish.rs: send_publish, recv_publish", "akasa-core/src/protocols/mqtt/online_loop.rs: OnlineLoop::poll", "akasa-core/src/protocols/mqtt/v5/message.rs: handle_normal"]}
{"id": "C57", "title": "A session sends exactly what its queue hands out", "statement": "Every PUBLISH and PUBREL a session writes to its client is either a QoS 0 message it has just been handed or comes from its bounded outgoing queue, in the order the queue hands it out; the queue is changed by nothing but messages handed to the session, acknowledgements and reconnects, so over a whole session the queue stays bounded, and for MQTT 3 clients first transmissions are in order and never more messages are unacknowledged than allowed.", "quantifier": "every sequence of packets, messages, disconnects and resumes of a session, with arbitrary other clients acting in between", "why_tests_cant": "A refinement between two state machines over unbounded executions.", "anchors": ["akasa-core/src/protocols/mqtt/v3/packet/common.rs: handle_pendings", "akasa-core/src/protocols/mqtt/v5/packet/common.rs: handle_pendings", "akasa-core/src/protocols/mqtt/v3/packet/publish.rs: recv_publish", "akasa-core/src/protocols/mqtt/v5/packet/publish.rs: recv_publish", "akasa-core/src/protocols/mqtt/v3/message.rs: handle_normal", "akasa-core/src/protocols/mqtt/v5/message.rs: handle_normal"]}
{"id": "C58", "title": "The RETAIN flag tells retained from live messages", "statement": "A message delivered because a subscription matches a live PUBLISH has the RETAIN flag clear unless the subscription asked for it as published; a message delivered from the retained store on SUBSCRIBE has the RETAIN flag set.", "quantifier": "every message, subscription and session state", "why_tests_cant": "Ranges over all messages and subscriptions.", "anchors": ["akasa-core/src/protocols/mqtt/v3/message.rs: handle_normal", "akasa-core/src/protocols/mqtt/v5/message.rs: handle_normal", "akasa-core/src/protocols/mqtt/v3/packet/subscribe.rs: handle_subscribe", "akasa-core/src/protocols/mqtt/v5/packet/subscribe.rs: handle_subscribe"]}
{"id": "C59", "title": "Messages still on their way survive the end of the publisher's connection", "statement": "When a publisher's connection ends, every copy of its accepted messages that is still on its way to a receiver which stays connected is delivered to that receiver's inbox, once and in order.", "quantifier": "every state of the transfer queues and inboxes at the end of a connection", "why_tests_cant": "whether a message is lost depends on the fill level of the receiver's inbox at the very moment the publisher's connection ends; tests see only a few of these interleavings", "anchors": ["akasa-core/src/protocols/mqtt/v5/message.rs:943-967", "akasa-core/src/protocols/mqtt/v3/message.rs:185-200", "akasa-core/src/protocols/mqtt/online_loop.rs:462-564"]}
{"id": "C60", "title": "Exactly the PUBLISH packets that MQTT allows are accepted", "statement": "A PUBLISH from a connected client is passed on, unchanged and once, if it has an effective topic that is not reserved, does not combine DUP with QoS 0, carries no subscription identifiers, respects the packet size limit, and (QoS 2) uses a free packet identifier within the receive maximum; a PUBLISH that violates MQTT is not passed on, changes neither subscriptions nor retained messages, and ends the connection; nothing else is ever passed on on behalf of the client.", "quantifier": "every sequence of packets, messages, disconnects and resumes of a session, every packet", "why_tests_cant": "The effective topic and the free identifiers depend on the whole history of the session; the packets range over an infinite set.", "anchors": ["akasa-core/src/protocols/mqtt/v3/packet/publish.rs: handle_publish", "akasa-core/src/protocols/mqtt/v5/packet/publish.rs: handle_publish"]}
{"id": "C61", "title": "A CONNACK that reports an error says that no session is present", "statement": "Every CONNACK whose return or reason code is not success has the session-present flag clear.", "quantifier": "every sequence of connection attempts and other events of the broker", "why_tests_cant": "whether a session is present depends on everything that happened before the attempt", "anchors": ["akasa-core/src/protocols/mqtt/v3/packet/connect.rs: handle_connect", "akasa-core/src/protocols/mqtt/v5/packet/connect.rs: handle_connect, session_connect"]}
{"id": "C62", "title": "The keep-alive interval in force is the one the client knows", "statement": "The interval after which the broker closes a silent connection is that of the CONNECT packet unless the CONNACK names another; for MQTT 5 it lies in the configured range.", "quantifier": "every configuration, every CONNECT, every run of the broker", "why_tests_cant": "ranges over all configurations and packets", "anchors": ["akasa-core/src/protocols/mqtt/v5/packet/connect.rs: handle_connect, session_connect", "akasa-core/src/protocols/mqtt/v3/packet/connect.rs: handle_connect", "akasa-core/src/config.rs: Config::is_valid"]}
{"id": "C63", "title": "The session expiry interval in force is the one the client knows and within the maximum", "statement": "The expiry interval of an MQTT 5 session is that of the CONNECT packet (0 if absent) unless CONNACK names another, or the one of the client's DISCONNECT, and never exceeds the configured maximum.", "quantifier": "every configuration and every run of the broker", "why_tests_cant": "ranges over all configurations and all runs", "anchors": ["akasa-core/src/protocols/mqtt/v5/packet/connect.rs: handle_connect, session_connect", "akasa-core/src/protocols/mqtt/v5/packet/connect.rs: handle_disconnect"]}
{"id": "C64", "title": "A session belongs to the client identifier in CONNECT, or to one made for the client", "statement": "The client identifier of a served connection and its session is the one in the CONNECT packet; if that is empty, it is one made by the broker, and an MQTT 5 client (and nobody else) is told it in CONNACK; MQTT 3.1 clients, and 3.1.1 clients without clean session, must give one.", "quantifier": "every run of the broker", "why_tests_cant": "ranges over all CONNECT packets, take-overs and resumptions", "anchors": ["akasa-core/src/protocols/mqtt/v3/packet/connect.rs: handle_connect", "akasa-core/src/protocols/mqtt/v5/packet/connect.rs: handle_connect, session_connect"]}
{"id": "C65", "title": "Refused connection attempts have no effect", "statement": "A connection attempt that is not let in (bad protocol, credentials, client identifier, authentication exchange, refused by policy) changes no session, subscription, retained message or other connection, and nobody else is sent anything because of it.", "quantifier": "every handshake event in every state of the broker", "why_tests_cant": "ranges over all attempts in all states; a test checks only the effects it thinks of", "anchors": ["akasa-core/src/server/mod.rs: handle_accept", "akasa-core/src/protocols/mqtt/v3/message.rs: handle_connection", "akasa-core/src/protocols/mqtt/v5/message.rs: handle_connection", "akasa-core/src/protocols/mqtt/v3/packet/connect.rs: handle_connect", "akasa-core/src/protocols/mqtt/v5/packet/connect.rs: handle_connect, handle_auth"]}
{"id": "C66", "title": "One CONNACK per connection, and nothing before it", "statement": "At most one CONNACK is sent on a connection; no message is sent to the client of a connection and none is accepted from it before a CONNACK that reports success.", "quantifier": "every interleaving of any number of connections", "why_tests_cant": "quantifies over interleavings of handshakes, take-overs and traffic", "anchors": ["akasa-core/src/server/mod.rs: handle_accept", "akasa-core/src/protocols/mqtt/v3/message.rs: handle_connection", "akasa-core/src/protocols/mqtt/v5/message.rs: handle_connection", "akasa-core/src/protocols/mqtt/v3/message.rs: handle_online", "akasa-core/src/protocols/mqtt/v5/message.rs: handle_online"]}
{"id": "C67", "title": "The retained store is what the published messages make of it", "statement": "At any time, the retained message of a topic is the last message published to it with the retain flag by any client, directly or as will, unless that had an empty payload; a subscription's lookup finds exactly those of the topics it matches.", "quantifier": "every run of the broker with any number of clients", "why_tests_cant": "quantifies over all interleavings of the clients' messages and wills", "anchors": ["akasa-core/src/protocols/mqtt/retain.rs", "akasa-core/src/protocols/mqtt/v3/packet/publish.rs: send_publish", "akasa-core/src/protocols/mqtt/v5/packet/publish.rs: send_publish"]}
{"id": "C68", "title": "Every session lives as if its client were the only one", "statement": "Whatever the other clients do: what a client sends and receives over all the connections of one session (first connection, take-overs, times without connection, reconnections) is a possible behaviour of a session that is alone with these inputs, and its state is determined by them. So the guarantees for one session hold in the whole broker: queue and QoS 2 bounds, one message per QoS 2 identifier until PUBREL even across reconnections, the window of unacknowledged PUBLISH packets, and messages of one sender delivered in the order in which they were published, each at most once.", "quantifier": "every run of the broker with any number of clients, connections and sessions", "why_tests_cant": "quantifies over all interleavings of all clients and over all histories of reconnections and take-overs", "anchors": ["akasa-core/src/protocols/mqtt/online_loop.rs", "akasa-core/src/protocols/mqtt/v3/message.rs", "akasa-core/src/protocols/mqtt/v5/message.rs", "akasa-core/src/state.rs"]}
{"id": "C69", "title": "A hook that allows everything cannot be noticed", "statement": "With hooks that answer success, leave packets as they are and ask for no action (the default implementation), every PUBLISH, SUBSCRIBE and UNSUBSCRIBE has exactly the effect and the replies it has with hooks switched off.", "quantifier": "every packet, session and broker state, and every setting of which hooks are enabled", "why_tests_cant": "An equality of two code paths over all packets and states.", "anchors": ["akasa-core/src/hook.rs: handle_request", "akasa-core/src/protocols/mqtt/v3/message.rs: handle_packet", "akasa-core/src/protocols/mqtt/v5/message.rs: handle_packet"]}
{"id": "C70", "title": "Actions of hooks act like the client and send no retained messages", "statement": "A message published by a hook on behalf of a client reaches the same clients with the same copies, and changes the retained messages in the same way, as if the client had published it; a subscription made by a hook never causes a retained message to be sent to the client.", "quantifier": "every message, every list of filters, session and broker state, both protocol versions", "why_tests_cant": "Ranges over all states of the routing table and the retained messages.", "anchors": ["akasa-core/src/hook.rs: PublishAction, SubscribeAction", "akasa-core/src/protocols/mqtt/v3/message.rs: apply_action", "akasa-core/src/protocols/mqtt/v5/message.rs: apply_action"]}
{"id": "C71", "title": "A session outlives its connection exactly when the client asked for it", "statement": "When a connection has ended, its session is kept, with its subscriptions and unacknowledged messages, if the client connected without clean session (MQTT 3) or the session expiry interval in force is not 0 (MQTT 5); otherwise the session is removed, its client identifier is free again and no message is accepted for it any more. The interval in force is the one of CONNECT or of a DISCONNECT of the same connection, and a DISCONNECT never turns 0 into another value. A session is never removed for another reason than this or the timer of its own expiry, and a session that is kept stays until the client identifier is asked for again or the timer expires it.", "quantifier": "every execution of the broker with any number of connections, both protocol versions, every interleaving of ends of connections, timers and new connections", "why_tests_cant": "Ranges over all interleavings of several connections, timers and messages.", "anchors": ["akasa-core/src/protocols/mqtt/v3/message.rs: handle_online, handle_offline", "akasa-core/src/protocols/mqtt/v5/message.rs: handle_online, handle_offline", "akasa-core/src/protocols/mqtt/v5/packet/connect.rs: handle_disconnect", "akasa-core/src/state.rs: remove_client, offline_client"]}
{"id": "C72", "title": "Few messages are on their way inside the broker at any time", "statement": "No client ever has more than 8 messages waiting in its inbox. While 10 or more copies of messages published on a connection wait to be passed on, no packet is read from that connection, and whenever fewer wait packets are read; so if no message makes more than k copies, never more than 9 + k copies wait on an established connection.", "quantifier": "every execution of the broker with any number of connections, subscribers and published messages, and every speed of the receivers", "why_tests_cant": "The bound must hold for every interleaving of fast publishers and slow receivers.", "anchors": ["akasa-core/src/protocols/mqtt/online_loop.rs: OnlineLoop::poll", "akasa-core/src/protocols/mqtt/v3/packet/publish.rs: send_publish", "akasa-core/src/protocols/mqtt/v5/packet/publish.rs: send_publish", "akasa-core/src/state.rs: add_client"]}
{"id": "C73", "title": "No client can make the broker panic", "statement": "Whatever packets clients send, in whatever order connections are made, taken over, broken, closed and expire, no handler of the broker panics: not in the routing table, not in the retained store, not in the registry of clients, not in the handling of timers.", "quantifier": "every number of connections, every sequence of packets with valid topic filters, every interleaving of the steps of all connections and timers", "why_tests_cant": "A panic needs a particular sequence of events of several clients; tests try few sequences.", "anchors": ["akasa-core/src/protocols/mqtt/route.rs: SharedClients::insert, SharedClients::remove", "akasa-core/src/protocols/mqtt/retain.rs: get_matches", "akasa-core/src/state.rs: add_client, remove_client, offline_client", "akasa-core/src/protocols/mqtt/v3/message.rs: handle_control"]}
{"id": "C74", "title": "What a client says in its CONNECT is what the broker applies", "statement": "The limits an MQTT 5 client names in its CONNECT (receive maximum, maximum packet size, topic alias maximum, session expiry interval), its will and its clean flag are the ones in force for that connection, whatever an earlier connection of the same session said; a receive maximum or maximum packet size of 0 is refused. The broker uses a topic alias towards a client only if the client allowed aliases and within the maximum it named, and never leaves more PUBLISH packets unacknowledged than the receive maximum of the connection. In the other direction the CONNACK names the limits the broker itself enforces.", "quantifier": "every execution of the broker with any number of clients, every sequence of connects, reconnects with other limits, take-overs, packets and messages", "why_tests_cant": "The limits must hold in every state a session can reach, also after it was taken over by a connection with smaller limits; tests fix one set of limits and one history.", "anchors": ["akasa-core/src/protocols/mqtt/v5/packet/connect.rs: handle_connect, session_connect", "akasa-core/src/protocols/mqtt/v3/packet/connect.rs: handle_connect", "akasa-core/src/protocols/mqtt/v5/packet/publish.rs: send_publish, recv_publish", "akasa-core/src/protocols/mqtt/pending.rs: PendingPackets"]}
{"id": "C75", "title": "The broker invents nothing: what a client reads was published", "statement": "Every application message that the broker sends to any client was published before by some client, as a PUBLISH or as the will given in its CONNECT, and arrives as it was published: same topic (after resolving topic aliases as MQTT 5 says), same payload, same user properties, content type, response topic, correlation data and payload format between MQTT 5 clients, message expiry not increased, QoS not raised, RETAIN set only if the publisher set it. An MQTT 5 client that remembers topic aliases can always tell the topic.", "quantifier": "every execution of the broker with any number of clients of either protocol version, every sequence of packets, reconnects, retained messages, wills and retransmissions, every PUBLISH sent", "why_tests_cant": "That nothing is ever altered, mixed up or delivered under the wrong topic is a statement about all histories: aliases, retained messages, queues of offline sessions and retransmission interact.", "anchors": ["akasa-core/src/protocols/mqtt/v5/packet/publish.rs: send_publish, recv_publish", "akasa-core/src/protocols/mqtt/v3/packet/publish.rs: send_publish, recv_publish", "akasa-core/src/protocols/mqtt/v5/packet/subscribe.rs: handle_subscribe", "akasa-core/src/protocols/mqtt/v3/packet/subscribe.rs: handle_subscribe", "akasa-core/src/protocols/mqtt/retain.rs: get_matches"]}
{"id": "C76", "title": "A connection never stalls: whatever can be done is done, or the task will be woken for it", "statement": "Whenever the task that serves a connection goes to sleep, it will be woken for everything it still has to do: for the next packet of the client, for control messages, for messages from other sessions, for bytes that wait to be written or flushed, for copies that wait to be passed on to other clients, and for closing the connection. Packets and messages are handled in the order of arrival, none is skipped and none is handled twice; the task waits for new ones only after it has taken all there were.", "quantifier": "every sequence of wake-ups of the task, every sequence of packets, malformed bytes, control messages and messages of other sessions, every pattern of partial, blocked and failed reads, writes, flushes and sends, every answer of the hooks, both protocol versions", "why_tests_cant": "A lost wake-up shows only for particular interleavings of readiness: a socket that takes part of the bytes, a flush that is not ready, a full inbox just when the write queue is full. Tests over loopback sockets hardly ever meet them.", "anchors": ["akasa-core/src/protocols/mqtt/online_loop.rs: OnlineLoop::poll"]}
{"id": "C77", "title": "What waits to be written to a slow client is bounded", "statement": "However slowly a client reads and however much it sends or others send to it, the broker keeps no more packets waiting to be written to that client than sixteen and the number of messages the client accepts unacknowledged at the same time.", "quantifier": "every sequence of wake-ups of the task of a connection, every behaviour of the transport, every packet and message, every receive maximum", "why_tests_cant": "The bound has to hold for every mixture of packets, acknowledgements and messages against every speed of the client; a test shows one queue at one time.", "anchors": ["akasa-core/src/protocols/mqtt/online_loop.rs: OnlineLoop::poll, too_much_write_data", "akasa-core/src/protocols/mqtt/v5/packet/subscribe.rs: handle_subscribe"]}
{"id": "C78", "title": "The bytes a client gets are its session's packets, in order, without a gap", "statement": "The bytes written to a connection are always a prefix of the encodings, one after the other, of the packets that its session sent, in the order in which the session sent them; when nothing waits to be written they are all of them, and a connection closed after DISCONNECT of either side is closed only after all has been written and flushed, unless the transport fails. What the session sends and what becomes of its state is determined by the packets and messages handled, one after the other, independently of how reading and writing interleave, of partial writes and of blocked sinks.", "quantifier": "every sequence of wake-ups of the task of a connection, every pattern of partial, blocked and failed writes, every interleaving of packets, messages of other sessions and passing of copies", "why_tests_cant": "The interleavings of reading, hooks, writing and broadcasting in one hand-written poll function are unbounded.", "anchors": ["akasa-core/src/protocols/mqtt/online_loop.rs: OnlineLoop::poll", "akasa-core/src/protocols/mqtt/v3/message.rs: handle_packet, handle_normal", "akasa-core/src/protocols/mqtt/v5/message.rs: handle_packet, handle_normal, handle_decode_error"]}
{"id": "C79", "title": "A publish that runs while others subscribe and unsubscribe reaches whom it should", "statement": "While a message is being published, other clients may subscribe and unsubscribe at the same time. Every client that holds a matching subscription during the whole publish gets a copy; whoever gets a copy held a matching subscription at some moment of the publish; nobody gets two copies for one filter; and the broker does not crash.", "quantifier": "every history of the subscriptions, every topic, every sequence of subscribe and unsubscribe calls of other connections between the lookup and each reading of a filter's subscribers", "why_tests_cant": "The window between looking the topic up and reading the subscribers of each filter is a few instructions wide; tests hit one interleaving, almost always the one in which nothing happens in between.", "anchors": ["akasa-core/src/protocols/mqtt/route.rs: RouteTable::get_matches, subscribe, unsubscribe", "akasa-core/src/protocols/mqtt/v3/packet/publish.rs: send_publish", "akasa-core/src/protocols/mqtt/v5/packet/publish.rs: send_publish"]}
{"id": "C80", "title": "A retained message published while a client subscribes is not lost between the two", "statement": "When one client publishes a retained message while another subscribes to a filter that matches its topic, then however the two requests interleave, the publisher finds the new subscription or the subscriber finds the retained message (or a later one for that topic).", "quantifier": "every interleaving of the table accesses of the two requests with those of any number of other requests", "why_tests_cant": "The result depends on the order of four accesses to two tables with separate locks; only the interleavings in which both requests overlap are in question, and tests do not produce them reliably.", "anchors": ["akasa-core/src/protocols/mqtt/v5/packet/publish.rs: send_publish", "akasa-core/src/protocols/mqtt/v5/packet/subscribe.rs: handle_subscribe", "akasa-core/src/protocols/mqtt/v3/packet/publish.rs: send_publish", "akasa-core/src/protocols/mqtt/v3/packet/subscribe.rs: handle_subscribe", "akasa-core/src/protocols/mqtt/retain.rs: RetainTable"]}
{"id": "C81", "title": "Nothing locks a client out for good", "statement": "Whatever happened to earlier connections of a client identifier (lost before the CONNACK, refused will, lost with undelivered messages), a later CONNECT with that identifier can be accepted again without restarting the broker.", "quantifier": "every history of the broker, every client identifier, every continuation", "why_tests_cant": "That no continuation whatsoever leads to acceptance, or that one always exists, is a statement about all infinite continuations of all histories; a test sees one reconnect after one failure.", "anchors": ["akasa-core/src/state.rs: add_client, remove_client", "akasa-core/src/protocols/mqtt/v3/packet/connect.rs: handle_connect", "akasa-core/src/protocols/mqtt/v5/packet/connect.rs: session_connect", "akasa-core/src/protocols/mqtt/v3/message.rs: handle_online, handle_offline", "akasa-core/src/protocols/mqtt/v5/message.rs: handle_online, handle_offline, broadcast_packets"]}
{"id": "C82", "title": "Every CONNECT is answered", "statement": "A connection that asks for a session which another task of the broker keeps does not wait forever: its request is not lost, and it is accepted or closed once the keeper has served the requests before it.", "quantifier": "every history of the broker, every connection that waits for a session, every continuation", "why_tests_cant": "The request and the removal of the session race for a window between two awaits; and that a connection waits forever cannot be observed in finite time.", "anchors": ["akasa-core/src/state.rs: add_client", "akasa-core/src/protocols/mqtt/online_loop.rs: OnlineLoop::poll (control messages)", "akasa-core/src/protocols/mqtt/v3/message.rs: handle_online, handle_control", "akasa-core/src/protocols/mqtt/v5/message.rs: handle_online, handle_control"]}
{"id": "C83", "title": "A client that does not send its CONNECT in time is disconnected", "statement": "Five seconds after a connection was opened, the broker closes it unless the client has by then sent everything it has to send to be connected (PROXY header, TLS and WebSocket handshakes, CONNECT, AUTH); it never closes a connection for lack of time before that.", "quantifier": "every kind of listener, everything a client may send and every division of it in time", "why_tests_cant": "The slow client can stop at any byte of any layer; tests cover one or two of these points, and that a connection is never closed cannot be observed in finite time.", "anchors": ["akasa-core/src/server/mod.rs: handle_accept", "akasa-core/src/protocols/mqtt/v3/message.rs: handle_connection", "akasa-core/src/protocols/mqtt/v5/message.rs: handle_connection"]}
{"id": "C84", "title": "No layer of a listener can be skipped", "statement": "A client becomes connected only after it has passed, in this order, all the layers its listener is configured with (PROXY header, TLS, WebSocket) and then sent a CONNECT of a known protocol version that was accepted; its address is the one in the PROXY header if the listener expects one and otherwise that of the socket. Health checks of the proxy, Unix addresses, other first packets and other subprotocols end the connection.", "quantifier": "every kind of listener, every sequence of results of the layers", "why_tests_cant": "Combinations of layers and orders of events; a test shows that good clients get in, not that no sequence of events lets others in.", "anchors": ["akasa-core/src/server/mod.rs: handle_accept, ConnectionArgs", "akasa-core/src/server/rt.rs: start"]}
{"id": "C85", "title": "WebSocket clients are let in exactly if they offer the subprotocol mqtt", "statement": "A client that connects by WebSocket is let in if and only if `mqtt` is among the subprotocols it offers.", "quantifier": "every value of the header, or none", "why_tests_cant": "The header is a list with unbounded contents; a test tries a few values.", "anchors": ["akasa-core/src/server/mod.rs: handle_accept (accept_hdr_async callback)"]}
{"id": "C86", "title": "A client is closed for lack of packets only if it was silent itself", "statement": "When a connection is closed because its keep-alive interval ran out, no packet of this connection had been handled for more than one and a half times its keep-alive interval when that was decided.", "quantifier": "every run of the broker: any number of clients, connections, keep-alive intervals, packets, and any timing of all tasks", "why_tests_cant": "Depends on when timers of former connections run in relation to reconnections and packets of all clients; a test tries a few timings of one connection.", "anchors": ["akasa-core/src/protocols/mqtt/common.rs: start_keep_alive_timer", "akasa-core/src/protocols/mqtt/v3/packet/connect.rs: session_connect", "akasa-core/src/protocols/mqtt/v5/packet/connect.rs: session_connect"]}
{"id": "C87", "title": "The hook before a connection decides who gets in, and its answer reaches the client", "statement": "The hook is asked once about every CONNECT, in the order they come. A connection is accepted only if the hook agreed to its CONNECT before. A connection the hook does not agree to is not served, and the client gets a CONNACK with the reason the hook chose and nothing else.", "quantifier": "every configuration, every answer of the hook, every run of the broker with any number of connections", "why_tests_cant": "That no order of events lets a refused connection in cannot be shown by trying some; the hook is arbitrary code.", "anchors": ["akasa-core/src/protocols/mqtt/v3/message.rs: handle_connection, before_connect_hook", "akasa-core/src/protocols/mqtt/v5/message.rs: handle_connection, before_connect_hook", "akasa-core/src/hook.rs: HookConnectCode"]}
{"id": "C88", "title": "The hooks are told of every connection and of its end", "statement": "Every connection that is accepted is reported to the hook after a connection once, with the session-present flag of its CONNACK, and, once it is over, to the hook after a disconnect once, with the information whether its session went to another connection. Other connections are not reported. Each hook can be switched off by its own setting.", "quantifier": "every configuration, every run of the broker, every way a connection can end", "why_tests_cant": "A connection can end in many ways, at any time, while other connections take its session over; tests show that some of them are reported.", "anchors": ["akasa-core/src/protocols/mqtt/v3/message.rs: handle_connection, after_connect_hook, after_disconnect_hook", "akasa-core/src/protocols/mqtt/v5/message.rs: handle_connection, after_connect_hook, after_disconnect_hook", "akasa-core/src/config.rs: HookConfig"]}
{"id": "C89", "title": "A hook that fails costs the client its connection and nothing more", "statement": "If a hook for connections fails, the connection is closed. The client can connect again, its will is published, and all other clients, subscriptions, retained messages and messages on their way are as if the hook had not failed.", "quantifier": "every run of the broker, every moment at which a hook fails, and everything that can happen after it", "why_tests_cant": "What happens after the failure is an unbounded future; that nobody can ever connect again, or that all others are unaffected, is not the outcome of one run.", "anchors": ["akasa-core/src/protocols/mqtt/v3/message.rs: handle_connection", "akasa-core/src/protocols/mqtt/v5/message.rs: handle_connection"]}
{"id": "C90", "title": "Hooks that agree to everything change nothing", "statement": "With hooks for connections that agree to everything and never fail, the broker reaches the same state and does the same things in the same order as without hooks.", "quantifier": "every configuration, every run of the broker", "why_tests_cant": "Equality of behaviour over all runs cannot be tested.", "anchors": ["akasa-core/src/protocols/mqtt/v3/message.rs: handle_connection", "akasa-core/src/protocols/mqtt/v5/message.rs: handle_connection"]}
{"id": "C91", "title": "Certificates of clients are demanded as configured", "statement": "On a listener with TLS, a client that shows no certificate is refused if fail_if_no_peer_cert is set, and a certificate that is shown must be issued by the authorities of ca_file if verify_peer is set. Clients that meet this are let through, and only such a client can become connected there.", "quantifier": "every configuration the server starts with, every content of the certificate files, every certificate, every order of events of the connection", "why_tests_cant": "Each combination of settings and files is a different server; that no order of events lets a client without certificate reach MQTT is about all executions.", "anchors": ["akasa-core/src/server/mod.rs: build_tls_context, handle_accept", "akasa-core/src/server/rt.rs: start", "akasa-core/src/config.rs: TlsListener"]}
{"id": "C92", "title": "The server starts exactly with usable settings, and serves exactly the configured listeners", "statement": "The command start runs the server if the settings are valid, the password file can be loaded when authentication is on, and the files of all listeners with TLS can be used; otherwise it ends with an error before any socket is opened, and it never panics. When it runs, it serves exactly the listeners in the settings, each with the address, the proxy setting and the layers configured for it and, for TLS, with its own certificate, key and authorities, and the passwords in force are those of the file.", "quantifier": "every configuration, every content of the files", "why_tests_cant": "The combinations of listeners, files and settings are unlimited; a listener served without TLS by a mix-up shows only for the combination concerned.", "anchors": ["akasa/src/main.rs: Commands::Start", "akasa-core/src/server/rt.rs: start", "akasa-core/src/server/mod.rs: build_tls_context", "akasa-core/src/config.rs: is_valid"]}
{"id": "C93", "title": "A listener never gives up, and trouble stays where it is", "statement": "Whatever fails, every listener is opened again, what happens at one listener does not change the others, and the server does not end. A connection that the operating system has set up at a listener is served, once, as soon as it is its turn, also if accepting another one fails.", "quantifier": "every sequence of failures of sockets and of arrivals of connections, any number of listeners", "why_tests_cant": "Failures of the operating system (no more file descriptors, address in use) can come at any time and in any order, and that a listener comes back is a statement about all of them.", "anchors": ["akasa-core/src/server/rt.rs: start, listen", "akasa-core/src/server/http_api.rs: serve"]}
{"id": "C94", "title": "A client that stops reading holds up nobody else", "statement": "If a client stops reading from its connection, so that its session takes no more messages, the other clients that publish are still read, and messages between other clients are still delivered, also if they are sent on topics to which that client has subscribed.", "quantifier": "every reachable state of the broker, every set of clients that stop reading at any time, every continuation in which the others go on", "why_tests_cant": "Whether one stopped client blocks others depends on which queues are full at the moment and on who waits for whom; a test can only show that a certain pattern of messages gets through.", "anchors": ["akasa-core/src/protocols/mqtt/online_loop.rs: poll, too_much_write_data", "akasa-core/src/state.rs: broadcast_packets, inbox size"]}
{"id": "C95", "title": "An MQTT 5 client is told, truthfully, why the broker closes its connection", "statement": "When the broker closes the connection of an MQTT 5 client (because of what the client sent, because another connection takes over its session, because it was silent for too long, or because of an error of the broker), the last packet it sends is a DISCONNECT with a reason code that describes the cause. A client that did not make the mistake named by a reason code is not sent a DISCONNECT with it.", "quantifier": "every session, every sequence of packets and events on its connections, every interleaving of reading, writing and messages for the connection", "why_tests_cant": "What counts as a mistake depends on the whole history of the connection (aliases bound, messages not released, interval asked for), and whether the last packet reaches the client on when buffers and sockets are full; a test fixes one history and one schedule.", "anchors": ["akasa-core/src/protocols/mqtt/v5/packet/common.rs:74-107 build_error_disconnect", "akasa-core/src/protocols/mqtt/v5/packet/publish.rs handle_publish", "akasa-core/src/protocols/mqtt/v5/packet/subscribe.rs", "akasa-core/src/protocols/mqtt/v5/packet/connect.rs:349-371 handle_disconnect", "akasa-core/src/protocols/mqtt/v5/message.rs:406-528, 738-815", "akasa-core/src/protocols/mqtt/online_loop.rs"]}
{"id": "C96", "title": "The broker keeps to the limits it announces", "statement": "A server can be configured with a highest QoS and without retained messages, and tells MQTT 5 clients so in the CONNACK. Then no PUBLISH is sent with a higher QoS and no subscription is granted one; no retained message is sent for a subscription and none is stored; a will beyond the limits is refused, and an MQTT 5 client that publishes with a higher QoS or with RETAIN is refused and its message is not passed on.", "quantifier": "every configuration, every reachable state of the broker, every client and packet", "why_tests_cant": "The QoS of a delivered message depends on all subscriptions (also shared ones) of the receiver, on what was granted when and on the stored messages; a test tries one combination.", "anchors": ["akasa-core/src/protocols/mqtt/v5/packet/connect.rs:284-330", "akasa-core/src/protocols/mqtt/v5/packet/subscribe.rs:53,77", "akasa-core/src/protocols/mqtt/v5/packet/publish.rs handle_publish, send_publish, recv_publish", "akasa-core/src/protocols/mqtt/v3/packet/subscribe.rs:37"]}
{"id": "C97", "title": "A client is sent only what it subscribed to", "statement": "A client holds a subscription only if it asked for the filter by SUBSCRIBE in the life of its session and has not been told since, by UNSUBACK, that it is unsubscribed. Every PUBLISH sent to a client goes back to something before in the life of the session: a message was taken from the inbox, and at that moment the client had asked for (and not given up) a filter that covers its topic; or the client subscribed to a filter that the topic matches, and the message had been published with RETAIN. When a QoS 0 PUBLISH is sent, the client has at that moment a filter that covers it: after the UNSUBACK nothing more comes, not even what was queued before.", "quantifier": "every reachable state of the broker, every client, every packet sent, all other clients and their (also shared, also abandoned) subscriptions", "why_tests_cant": "A message crosses the routing table, the sender's queue, the inbox of the receiver and its session, each at another time; between any two the subscriptions of anyone may change, sessions may be taken over and entries be left in the table. A test sees a few of these interleavings.", "anchors": ["akasa-core/src/protocols/mqtt/v5/packet/publish.rs:354-399 send_publish", "akasa-core/src/protocols/mqtt/v5/message.rs: handle_normal", "akasa-core/src/protocols/mqtt/v3/message.rs handle_normal", "akasa-core/src/protocols/mqtt/v5/packet/subscribe.rs:142-171", "akasa-core/src/protocols/mqtt/route.rs: get_matches"]}
{"id": "C98", "title": "A client that has answered everything has got everything", "statement": "A message with QoS 1 or 2 does not lie in the session of a connected client while nothing is going on: if the client has answered all PUBLISH packets (by PUBACK or PUBREC) and all PUBREL packets (by PUBCOMP) that it got on its present connection, no message waits for it. And if the queue always had room, every message that became due to it over all its connections has been sent to it.", "quantifier": "every reachable state of the broker, every client, every order of messages, answers (also wrong and repeated ones), disconnects and reconnects, every window size of at least one", "why_tests_cant": "Messages wait in the queue because the window is full, because the client was away, or because a transmission was not answered; they are sent only by passes that other events cause. Whether some order of these events leaves a message behind that no further event sends is a question about all of them.", "anchors": ["akasa-core/src/protocols/mqtt/pending.rs:83-214 get_ready_packet", "akasa-core/src/protocols/mqtt/v3/packet/common.rs handle_pendings", "akasa-core/src/protocols/mqtt/v5/packet/common.rs:152-240 handle_pendings", "akasa-core/src/protocols/mqtt/v5/packet/publish.rs handle_puback, handle_pubrec, handle_pubcomp", "akasa-core/src/protocols/mqtt/online_loop.rs"]}
{"id": "C99", "title": "The broker keeps to the rules of the exchange about messages with QoS 1 and 2", "statement": "Seen from the client, over all connections of its session, the broker keeps to the rules of MQTT about packet identifiers: no PUBLISH with QoS 1 or 2 has the identifier 0; a PUBLISH with an identifier that is in use for a message the client has not answered is the same message again, marked as repeated; no PUBLISH is sent with the identifier of a message answered by PUBREC until the exchange is over; PUBREL is sent only for a PUBREC of the client and not for a message that the client has still to answer; a message is not marked as repeated when it is sent for the first time on the first connection, and never with QoS 0.", "quantifier": "every session of the broker, every order of messages, answers (also wrong and repeated ones, and answers lost with the connection), disconnects and reconnects, both protocol versions", "why_tests_cant": "The client and the broker know different things when a connection ends between a packet and its answer, and the 16 bit identifiers are used again and again; whether the two views ever disagree in a way the client can see is a question about all interleavings and all lengths of runs.", "anchors": ["akasa-core/src/protocols/mqtt/pending.rs:20-214", "akasa-core/src/protocols/mqtt/v3/packet/common.rs handle_pendings", "akasa-core/src/protocols/mqtt/v5/packet/common.rs:152-240 handle_pendings", "akasa-core/src/protocols/mqtt/v3/packet/publish.rs handle_puback, handle_pubrec, handle_pubcomp", "akasa-core/src/protocols/mqtt/v5/packet/publish.rs handle_puback, handle_pubrec, handle_pubcomp", "akasa-core/src/protocols/mqtt/v3/session.rs:91, v5/session.rs:145 incr_server_packet_id"]}
{"id": "C100", "title": "A message lives as long as its publisher said", "statement": "The expiry interval of a message counts from its publication: a message whose interval has passed since it was published is not sent to anybody any more for the first time, whether it was retained, waited in a queue or waited for the receiver's connection; and an MQTT 5 receiver is told what is left of the interval. In particular no receiver is told an interval longer than the publisher's, or one that the publisher did not give.", "quantifier": "every run of the broker, every message with an expiry interval, every receiver and protocol version, every time that passes between the steps", "why_tests_cant": "Tests use short waits in one place. A message can wait in the retained store, in the sender's task, in the inbox of the receiver and in its queue; that the interval is honoured along all of these ways, and never grows, is a question about all runs and all times.", "anchors": ["akasa-core/src/protocols/mqtt/retain.rs:25-33 RetainContent", "akasa-core/src/protocols/mqtt/v5/packet/subscribe.rs handle_subscribe (retained messages)", "akasa-core/src/protocols/mqtt/v5/packet/common.rs:165-200 handle_pendings", "akasa-core/src/protocols/mqtt/pending.rs:29-47 push_back", "akasa-core/src/protocols/mqtt/v3/packet/common.rs handle_pendings"]}
{"id": "C101", "title": "End to end: QoS 1 at least once, QoS 2 exactly once, in order", "statement": "Take a client that follows the protocol, at the other end of a network that keeps the order of packets but may delay them and lose everything on its way when a connection ends. Over all connections of its session, the client hands messages with QoS 1 and 2 to its application in the order in which they became due to it (repetitions of messages with QoS 1 left out), none that was not due to it, and no message with QoS 2 twice. When it is connected and has nothing more to get or to answer, it has handed over all of them.", "quantifier": "every session of the broker, every order of messages, answers, disconnects and reconnects, every delay of packets in both directions, every point at which a connection is lost, both protocol versions", "why_tests_cant": "A connection can be lost between any two packets of the exchange, again and again, while new messages come in and old ones are sent again; that no such history makes the client take a repetition for a new message, or a new message for a repetition, is a claim about the broker and its peer together over all interleavings.", "anchors": ["akasa-core/src/protocols/mqtt/pending.rs:20-214", "akasa-core/src/protocols/mqtt/v3/packet/common.rs handle_pendings", "akasa-core/src/protocols/mqtt/v5/packet/common.rs:152-240 handle_pendings", "akasa-core/src/protocols/mqtt/v3/packet/publish.rs handle_puback, handle_pubrec, handle_pubcomp", "akasa-core/src/protocols/mqtt/v5/packet/publish.rs handle_puback, handle_pubrec, handle_pubcomp", "akasa-core/src/protocols/mqtt/online_loop.rs"]}
{"id": "C102", "title": "Publishing end to end: QoS 1 at least once, QoS 2 exactly once, in order", "statement": "Take a client that follows the protocol and publishes messages, at the other end of a network that keeps the order of packets but may delay them and lose everything on its way when a connection ends. Over all connections of its session, the messages with QoS 2 that the broker passes on are messages that the client has published, in that order and none of them twice; every message with QoS 1 that is completed for the client was passed on, in that order. While the connection goes on and nothing is on its way, all messages are completed, and then every message with QoS 2 was passed on exactly once.", "quantifier": "every session of the broker, every order of messages, answers, disconnects and reconnects, every delay of packets in both directions, every point at which a connection is lost, every use of packet identifiers by the client that the protocol allows, both protocol versions", "why_tests_cant": "A connection can be lost between any two packets of an exchange, again and again, while other exchanges go on and packet identifiers are used again; that no such history makes the broker take a repetition for a new message, or a new message for a repetition, is a claim about the broker and its peer together over all interleavings.", "anchors": ["akasa-core/src/protocols/mqtt/v3/packet/publish.rs:25-140 handle_publish, handle_pubrel", "akasa-core/src/protocols/mqtt/v5/packet/publish.rs:33-262 handle_publish, handle_pubrel", "akasa-core/src/protocols/mqtt/online_loop.rs"]}
{"id": "C103", "title": "From the SUBACK on, a client gets every message its subscription covers", "statement": "Once a SUBACK has granted a filter to a client, and until the client sends an UNSUBSCRIBE or another SUBSCRIBE for the filter or its session ends, every message that any client publishes on a topic the filter matches is delivered to the session, whether the client is connected or not, on whichever connections of the session: a copy for the filter with at least the granted QoS is queued at once, and when nothing of the publisher is on the way any more the session has taken it. What the session takes while the client holds the filter is due to the client with the topic, the payload and the smaller of the QoS published and granted; and a client that follows the protocol and has nothing more to get or to answer has got it.", "quantifier": "every run of the broker with any number of clients, every order of SUBSCRIBE, UNSUBSCRIBE, publishing, disconnects, reconnects and take-overs, every plain filter and valid topic, both protocol versions", "why_tests_cant": "The promise of a SUBACK is about everything that happens later: any sequence of other subscriptions, reconnects and take-overs, with the table of all clients changing at the same time. A test sees a few histories; that none of them loses a granted subscription or a message it covers is a claim about all of them.", "anchors": ["akasa-core/src/protocols/mqtt/v3/packet/subscribe.rs", "akasa-core/src/protocols/mqtt/v5/packet/subscribe.rs", "akasa-core/src/protocols/mqtt/v5/packet/publish.rs recv_publish, send_publish", "akasa-core/src/protocols/mqtt/v3/packet/publish.rs recv_publish, send_publish", "akasa-core/src/state.rs"]}
{"id": "C104", "title": "Nothing is left of a client that is gone", "statement": "The broker has message queues for exactly the clients whose session exists (or whose last messages are being passed on), its registry knows exactly the clients that have a session, and publishing finds only subscriptions of clients that have a session. So when all sessions have ended the broker is as at its start, apart from retained messages: nobody is registered, nothing is queued, and the routing table is empty.", "quantifier": "every run of the broker with any number of clients, every order of connects, take-overs, clean starts, subscriptions, expiries and lost connections, both protocol versions", "why_tests_cant": "A leak shows after weeks, not in a test: that nothing is left behind is a claim about the state after every possible order of connects, take-overs and endings of all clients. And that what is left behind stays for ever is a claim about all continuations.", "anchors": ["akasa-core/src/state.rs:97-216", "akasa-core/src/protocols/mqtt/v3/packet/connect.rs:116-138", "akasa-core/src/protocols/mqtt/v5/packet/connect.rs:230-255", "akasa-core/src/protocols/mqtt/v3/message.rs:201-213", "akasa-core/src/protocols/mqtt/v5/message.rs:318-330", "akasa-core/src/protocols/mqtt/route.rs"]}
{"id": "C105", "title": "A message for a shared subscription goes to exactly one member of the group", "statement": "When a message (or a will) is passed on and its topic matches the filter of a shared subscription $share/group/filter that at least one client has, exactly one of the clients that have the subscription gets the message because of it, in one copy, with at least the QoS granted to it; whoever published the message, and whatever connections, sessions and subscriptions came and went before.", "quantifier": "every run of the broker with any number of clients, every publisher, every group, every choice of the member", "why_tests_cant": "It ranges over all histories of members that join, leave, expire and start anew, and over all choices of the member; the failures need a particular earlier history.", "anchors": ["akasa-core/src/protocols/mqtt/v5/packet/publish.rs: send_publish", "akasa-core/src/protocols/mqtt/v3/packet/publish.rs: send_publish", "akasa-core/src/protocols/mqtt/route.rs: SharedClients, RouteNode::insert, RouteNode::remove", "akasa-core/src/protocols/mqtt/v5/packet/subscribe.rs", "akasa-core/src/state.rs: remove_client"]}
{"id": "C106", "title": "With hashing, the messages of a publisher, or of a topic, stay with one member of a shared group", "statement": "If the broker is configured to pick the member of a shared group by a hash of the publisher's client identifier (or of the topic), then any two messages of publishers with the same identifier (or with the same topic) that are passed on because of the same shared subscription go to the same member, as long as the same clients have that subscription; members that subscribe again, other groups and other filters have no influence.", "quantifier": "every run of the broker, every two messages in it, every hash function, every group", "why_tests_cant": "It compares two moments of arbitrarily long histories, for all hash functions; the failure needs members that leave and come back in a particular order.", "anchors": ["akasa-core/src/protocols/mqtt/v5/packet/publish.rs: send_publish", "akasa-core/src/protocols/mqtt/route.rs: SharedClients::get_by_hash, insert, remove", "akasa-core/src/config.rs: SharedSubscriptionMode"]}
{"id": "C107", "title": "The metrics page reports the number of connected clients", "statement": "At every moment the metrics page of the HTTP interface reports exactly the number of MQTT connections that are accepted and not over yet; it never reports fewer.", "quantifier": "every run of the broker: any number of clients that connect, take sessions over, are turned away, lose connections, come back, and whose sessions expire", "why_tests_cant": "The number is kept by increments and decrements scattered over connects, ends of connections, expiry and removal; an error accumulates only over particular interleavings.", "anchors": ["akasa-core/src/protocols/http/prometheus.rs: prometheus_metrics", "akasa-core/src/state.rs: online_clients_count, add_client, remove_client, offline_client"]}
{"id": "C108", "title": "What a hook asks for when a client connects is done in order and not noticed by the client", "statement": "The hook that is called after a connection is accepted can ask for messages to be published and for subscriptions and unsubscriptions of the client. They are carried out one by one, in order, before the client is served. Whatever the hook asks for, right after CONNACK the client is sent exactly what it would be sent without the hook, and its session differs only in its subscriptions and in the messages on their way to other clients. The connection ends exactly if the hook fails or publishes a message that no packet can hold; the client is then sent nothing more.", "quantifier": "every session, every state of the broker, every list of actions, MQTT 3 and MQTT 5", "why_tests_cant": "The actions run through the handlers of the client's own packets, which have effects on queues and answers to send; that none of these leaks into what the client gets must hold for all sessions and all lists of actions.", "anchors": ["akasa-core/src/protocols/mqtt/v5/message.rs: after_connect_hook, apply_action", "akasa-core/src/protocols/mqtt/v3/message.rs: after_connect_hook, apply_action", "akasa-core/src/hook.rs: HookAction"]}
{"id": "C109", "title": "The configurations that the program proposes work as they say", "statement": "The program can print a configuration to begin with, with passwords or for anonymous clients. The server accepts both. With the one for anonymous clients it starts whatever files there are, waits for plain MQTT connections at the address given and nowhere else, and lets in every client whose CONNECT is well formed. With the other it starts exactly if the password file can be read, waits at the same address and nowhere else, and lets nobody past CONNECT without a name and a password that the file accepts, whatever authentication method they ask for, although the configuration lists a SCRAM user whose hash is public.", "quantifier": "every address, every path, every content of the files, every CONNECT packet of MQTT 3.1, 3.1.1 and 5", "why_tests_cant": "That no CONNECT at all gets past the proposed configuration with passwords, and that every well formed one gets past the anonymous one, are statements about all packets and all password files.", "anchors": ["akasa-core/src/config.rs: Config::default, new_allow_anonymous, is_valid", "akasa/src/main.rs: DefaultConfig, Start", "akasa-core/src/protocols/mqtt/v5/packet/connect.rs: handle_connect"]}
