# Design

A Lean 4 model of the akasa MQTT broker (`/repo/akasa-core`, `/repo/akasa`) and machine-checked proofs of the properties in `properties.jsonl`.

## Layout

* `lean/Verif/Model/*.lean` - model, one file per source file or function group; each definition cites file and lines.
* `lean/Verif/Spec/*.lean` - small independent specifications (matching relation, abstract maps, client-side decoders, vocabulary for statements about runs).
* `lean/Verif/Proof/*.lean` - helper lemmas.
* `lean/Verif/Props/*.lean` - the property theorems (`Cxx_...`), with a non-vacuity `example` beside each.
* `MANIFEST.json` - property -> theorem names. `seeded/LOG.jsonl` - mutation log.

A theorem `Cxx_..._partial` proves the property under a condition or in part; `Cxx_..._false` proves by a concrete run of the model that the full claim does not hold of the code.

## Plan per property

* **C01** Live routing finds exactly the matching plain subscriptions. Route.lean models the trie (string splitting, recursion, pruning) function by function. Proof: abstraction of a trie to `path -> content`; refinement of every history to a finite map (filter, client) -> qos; lookup characterised by an independent matching relation on level lists.
* **C02** Filters that begin with a wildcard never see '$' topics. Corollary of the two lookup characterisations, stated separately on `$` topics.
* **C03** Unsubscribe is precise and the routing table does not leak. Refinement (C01) plus an invariant 'every node lies on the path of a live filter'.
* **C04** A shared subscription group always selects one current member. Shared.lean models the vector + index with panics as `none`. Expected FALSE of the code (removal of the last vector element re-inserts a stale index entry): prove the negation by a concrete history, and a `_partial` theorem for histories in which a client that left does not come back.
* **C05** Leaving a shared group leaves the other members in place. As C04.
* **C06** The retained store keeps the latest retained message of each topic. Retain.lean; refinement of every history to a map topic -> content.
* **C07** Retained lookup returns exactly the retained messages matching the filter. Retained lookup characterised by the same matching relation as C01, as a permutation of the filtered map (hash-map order is unspecified).
* **C08** The retained store does not leak. Invariant 'every node lies on the path of a retained topic'.
* **C09** The outgoing queue of a session is bounded. Pending.lean; invariant over all op sequences.
* **C10** The client's receive maximum is respected. Sent-and-unacknowledged ghost set of a connection is contained in the window; invariant.
* **C11** DUP is 0 on the first transmission and 1 on every later one. Trace property of the session sender: ghost log of transmissions.
* **C12** After PUBREC the message itself is never sent again. Invariant + trace property for every continuation.
* **C13** First transmissions happen in the order the messages were queued. Trace property: sequence numbers of first transmissions are increasing.
* **C14** A queued message is kept until it is acknowledged. Persistence invariant over all op sequences.
* **C15** Everything unacknowledged in the window is retransmitted on reconnect. Exact characterisation of one sending pass after reset; in the whole broker from the case of the step that accepts the connection and C68 (the parameters of the queue).
* **C16** An acknowledging client drains its queue. Termination measure over rounds.
* **C17** Packet identifiers of pending messages are distinct and non-zero. Expected FALSE in general (identifier counter wraps, refused messages consume identifiers): negation by witness and `_partial` for the window in which fewer than 65535 identifiers were consumed.
* **C18** Expired messages are not sent and the expiry interval is decreased (MQTT 5). Characterisation of one sending pass with clock.
* **C19** A QoS 2 message is passed on at most once per packet-identifier use. Receive automaton (v3 and v5) with ghost count of routed messages since release.
* **C20** A QoS 2 message that is acknowledged with PUBREC success has been passed on. Expected FALSE (first arrival with DUP=1 is acknowledged, not routed): negation by witness and `_partial` without DUP on first arrival.
* **C21** The number of unreleased incoming QoS 2 messages is bounded (MQTT 5). Invariant.
* **C22** Clients cannot publish to '$' topics. Invariant 'no bound alias starts with $' and decision logic.
* **C23** Incoming topic aliases resolve to the topic last bound by the same connection. Refinement of the alias map to the history of the connection.
* **C24** Outgoing topic aliases always decode to the right topic. Client-side decoder as specification; simulation invariant between broker tables and decoder.
* **C25** Every acknowledgement answers the packet that caused it. Decision logic stated outright.
* **C26** A published message goes to exactly the subscribed clients. Composition of C01 with the fan-out functions; recipients characterised as a set.
* **C27** Overlapping subscriptions of a client get one copy with the highest granted QoS (MQTT 5 publisher). Fan-out characterisation.
* **C28** No-local subscriptions never echo the client's own messages. Fan-out characterisation.
* **C29** Delivered QoS is the minimum of published and granted QoS. Decision logic of the delivery functions.
* **C30** Subscription identifiers delivered are those of the matching current subscriptions (MQTT 5). Decision logic of handle_normal.
* **C31** A message is dropped only if none of its matching subscriptions is left (v3 receiver). Expected FALSE (only the first filter is checked): negation by witness and `_partial` for a single filter.
* **C32** SUBACK lists one result per requested filter and rejected filters have no effect. Decision logic + frame conditions.
* **C33** A session's subscription list and the routing table agree. Invariant across any number of sessions sharing a route table.
* **C34** Retained messages sent on SUBSCRIBE obey retain handling. Decision logic; v3 deviates (retained messages of higher QoS than granted are not sent): negation + `_partial`.
* **C35** Internal client ids are never reused and identify one MQTT client identifier. Invariant over registry histories.
* **C36** Removing a client affects only that client. Frame theorem.
* **C37** The online-client counter equals the number of online clients. Expected FALSE (take-over increments without decrement): negation + `_partial` for histories without take-over of an online client.
* **C38** At most one connection owns a session. Transition system of owners and hand-over messages; invariant.
* **C39** Session resumption keeps all session state. Round trip of session -> state -> session.
* **C40** A stale expiry or will timer never touches a newer connection's session (MQTT 5). Transition system with timers tagged by connection time.
* **C41** The will is published exactly when the connection ends abnormally. Transition system of connection endings; v5 deviations recorded.
* **C42** Keep-alive: silent clients are closed, live ones are not. Discrete time model of the timer loop, any packet schedule.
* **C43** Bytes on the wire are the encoded packets in order. Write-loop model with an arbitrary oracle for write results; stream invariant.
* **C44** Messages fanned out to other sessions are neither lost, duplicated nor reordered per receiver. Broadcast-loop model with arbitrary oracle for sink readiness.
* **C45** PROXY protocol headers are parsed faithfully and totally. Byte-level parser model; round trip + totality. Panic path for unspecified family/protocol recorded (negation).
* **C46** The TLS mode of the PROXY header is enforced. Parser model, decision logic on TLV sequence.
* **C47** Password check accepts exactly the configured password hashes. Hash functions are parameters; decision logic.
* **C48** The password file survives a dump and load. Base64 and hash abstracted as parameters with recorded assumptions; round trip with explicit side condition on user names; negation for others.
* **C49** SCRAM authenticates exactly those who prove knowledge of the stored password. State machine model with HMAC/H/PBKDF2/base64 as parameters; soundness stated on the proof value, completeness by composition with the client model.
* **C50** No session without valid credentials when authentication is on. Decision logic over the connect handlers.
* **C51** A message, subscription or unsubscription refused by a hook has no effect. Decision logic + frame over the hook dispatcher.
* **C52** A valid configuration never makes the broker panic on QoS settings. Decision logic.
* **C53** The WebSocket transport is a faithful byte stream. Reader model with leftover buffer and arbitrary frames; stream invariant.
* **C54** The incoming packet size limit is enforced. Decision logic + frame.
* **C55** Packets larger than the client's maximum packet size are not sent (MQTT 5). Expected FALSE (size is taken from the inbound packet; alias and subscription ids are not counted): negation + `_partial`.
* **C56** Accepted QoS 1/2 messages reach every subscribed session's queue end to end. Composed transition system; conservation invariant.
* **C57** A session sends exactly what its queue hands out. Refinement of the packet-level session to the queue machine of C09-C18; the queue theorems then hold of the packets on the wire.
* **C58** The RETAIN flag tells retained from live messages. Decision logic of delivery; expected FALSE in two of four cases.
* **C59** Messages still on their way survive the end of the publisher's connection. Transfer machine of C44 with an end; expected FALSE (a copy held by a full sink is dropped).
* **C60** Exactly the PUBLISH packets that MQTT allows are accepted. Decision logic with the effective topic and free identifiers computed from the history by the specification.
* **C61** A CONNACK that reports an error says that no session is present. Front-end model (Connect.lean) around the whole broker; expected FALSE when the will is refused.
* **C62** The keep-alive interval in force is the one the client knows. Front-end model, invariant between opening, CONNECT and CONNACK.
* **C63** The session expiry interval in force is the one the client knows and within the maximum. As C62, and a frame theorem for what may change it; FALSE for DISCONNECT.
* **C64** A session belongs to the client identifier in CONNECT, or to one made for the client. Invariant of the front end.
* **C65** Refused connection attempts have no effect. Frame theorem of the front end.
* **C66** One CONNACK per connection, and nothing before it. Trace invariant of the front end.
* **C67** The retained store is what the published messages make of it. Ghost history of all messages passed on by the whole broker; composition with C06 and C07.
* **C68** Every session lives as if its client were the only one. Refinement of the whole broker to the single-session machine: the chain of connections of a session is cut out of the run; then the session theorems are lifted.
* **C69** A hook that allows everything cannot be noticed. Equality of the two step functions.
* **C70** Actions of hooks act like the client and send no retained messages. Decision logic; FALSE for MQTT 3 subscriptions.
* **C71** A session outlives its connection exactly when the client asked for it. World model: case analysis of the last step, invariant for the interval, and a frame theorem over runs for a session that is kept.
* **C72** Few messages are on their way inside the broker at any time. World model with the read guard of the online loop: invariant that the counter equals the number of queued copies, then a bound by induction.
* **C73** No client can make the broker panic. World model, where every panic is the value `none`: invariant of the routing table without shared groups, and an invariant that pays for the counter of the registry with one token per connection. False with shared subscriptions (witness runs).
* **C75** The broker invents nothing. World model: what is in inboxes and in the retained store was published (invariants over runs), so every event that a session meets carries a published message; C68 turns the life of the session into a run of that session alone, whose PUBLISH packets carry messages due to the client (C57) and decode to those of a run without topic aliases (C24).
* **C74** What a client says in its CONNECT is what the broker applies. Connection handling: the parameters of a served connection are those of its CONNECT. World model: while a connection has its session, its own parameters are the last in the life of the session (invariant on the last accepted connection); on the session alone, the alias maximum and the window follow the last connection. The CONNACK names the limits of the configuration that the run is made with.
* **C76** A connection never stalls. Model of `OnlineLoop::poll` with the sources whose wakers were registered, from an arbitrary list of answers of the world; invariant over sequences of polls. What there is to do and what would wake the task is specified separately (`Spec/OnlineLoop.lean`). Two cases are false of the code (witness runs).
* **C77** What waits to be written to a slow client is bounded. Same model: the queue grows only when it holds fewer than sixteen packets, by one answer; an answer is at most one packet and a window, except for SUBSCRIBE.
* **C78** The bytes a client gets are its session's packets. Same model: every poll is a sequence of atomic steps (handle, write, pass on), the write queue keeps the invariant of C43, and the handled packets and messages are a run of the session model, so that all theorems about sessions carry over.
* **C79** A publish that runs while others subscribe and unsubscribe reaches whom it should. The routing table with its contents as references into a heap (`Model/RouteHeap.lean`): a lookup returns references, which are read one by one while other calls change the table. Refinement to the table without references (invariant: distinct references, every node's cell is its content), frame lemmas for cells that are detached. False of the code for the crash (witness run).
* **C80** A retained message published while a client subscribes is not lost between the two. Calls on the two tables as one interleaved history; both requests contain their calls in program order, so one of the two lookups comes after the other request's update; the tables' specifications (C01, C06) give the rest.
* **C81** Nothing locks a client out for good. World model: invariants that exclude acceptance for ever (registered without receivers; a set of sessions that wait for each other's full inboxes), and a constructed continuation (induction on the queue of requests) in the other direction. False of the code (witness runs).
* **C82** Every CONNECT is answered. World model: invariant that a waiting request is in the queue of its session; a waiting connection without owner waits in all continuations. False of the code (witness run).
* **C83** A client that does not send its CONNECT in time is disconnected. Model of the task of a new connection, poll by poll, with arbitrary answers of the layers; after a poll the task waits for something not ready (fuel suffices: rank), and every guarded wait ends once the timer has run. False of the code for the WebSocket handshake (witness run of any length).
* **C84** No layer of a listener can be skipped. Same model: invariant over runs that the layers before the present stage were passed in order.
* **C85** WebSocket clients are let in exactly if they offer the subprotocol mqtt. Same model; the specification reads the header as a list. False of the code (two witnesses).
* **C86** A client is closed for lack of packets only if it was silent itself. World model with time and the timer tasks of all connections (`Model/Watch.lean`); invariant over runs that relates timers, times of last packets, control queues and the log. False of the code (witness run).
* **C87** The hook before a connection decides who gets in. Broker with hooks (`Model/ConnHook.lean`: `Front` of C50 with three hooks given by their answers): invariant over runs that every connection in the handshake was admitted, that a refused one is over, and what was sent on it. False of the code for MQTT 3 (witness run).
* **C88** The hooks are told of every connection and of its end. Same model: invariant that relates the calls for a connection to its life (before, online, past, gone). False of the code for the switch and for failures between CONNACK and the loop (witness runs).
* **C89** A hook that fails costs the client its connection and nothing more. Same model: frame theorem for the step; the invariant of C81 that excludes acceptance for ever, and the life of the task for the will. False of the code (in all continuations, and witness run).
* **C90** Hooks that agree to everything change nothing. Same model: equality of runs, by induction.
* **C91** Certificates of clients are demanded as configured. Model of the start of the server (`Model/Start.lean`; files and rustls as parameters): exact condition for the handshake, composed with C84 for the connection. False of the code for `fail_if_no_peer_cert` without `verify_peer` (witness).
* **C92** The server starts exactly with usable settings, and serves exactly the configured listeners. Same model: equivalence of starting with an independent condition; membership and number of the tasks.
* **C93** A listener never gives up, and trouble stays where it is. Same model, listener tasks with the failures of sockets as events: induction over the events. False of the code when `accept` fails, and for HTTP (witness; in all continuations).
* **C94** A client that stops reading holds up nobody else. World model: a run that consists of steps of the publisher and its receivers is built by induction over the copies on their way; for the negation an invariant over all continuations (publisher held up, or over, or receiver gone). `OnlineLoop` for the slow client itself: a full batch is put back unchanged. False of the code (witness run).
* **C95** An MQTT 5 client is told, truthfully, why the broker closes its connection. `Fault` lists the mistakes of MQTT 5 with their codes, over what the client sent before; case analysis of the handlers plus invariants of runs for aliases, identifiers and the interval; `OnlineLoop` for the last packet (a session that is closed is drained, then ends). False of the code (four witness runs).
* **C96** The broker keeps to the limits it announces. World model: invariant that the routing table is the result of calls that grant no more than allowed (induction over the table, also for groups), hence all copies carry no more; the life of a session (C75) for what is sent. False of the code for PUBLISH packets (two witness runs).
* **C97** A client is sent only what it subscribed to. World model: every queued copy carries only filters that cover its topic (route table lookup, C01, plus an invariant on group names), by induction over runs; the life of a session (C75) carries this to the session; the subscriptions of a session are followed along its life through SUBSCRIBE and UNSUBACK; the origin of each packet (C57) gives the step.
* **C98** A client that has answered everything has got everything. Spec/Rest: the packets a client owes an answer for, as a multiset computed from what was seen of the connection. Invariant of the queue: every entry of the window that is not finished was sent and is owed; kept by acknowledgements, deliveries, reconnects (which clear both) followed by a sending pass; lifted to sessions by the log of their operations (C57) and to the broker by the life of a session (C75). A second invariant: a message leaves the queue only after it was sent.
* **C99** The rules of the exchange about QoS 1 and 2, as the client sees them. Spec/Talk: a monitor that reads what the client sees (packets both ways, connections) and stops when a rule is broken. Simulation between the queue of the session and the memory of the monitor: what each entry of the queue means for the use of its identifier, in a strong form while the connection is up and in a weak form (the broker may have got the last answer or not) after it is lost; a second invariant gives a fresh identifier to each new message.
* **C100** A message lives as long as its publisher said. Spec/Expiry says what it is for a PUBLISH to be sent after the expiry of every message ever published (two parts of a run, all clock readings of the first before and of the second after the expiry). Three runs of the whole broker show that this happens; that the interval is not longer than the publisher's follows from the origin of every PUBLISH (C75).
* **C101** End to end delivery. Spec/Once: a client that follows the protocol (MQTT 4.3.2, 4.3.3) with the packets on their way in both directions; packets arrive with any delay. An invariant of the queue of the session, the packets on their way and the state of the client together: identifiers number the messages due; what is on its way or was handed over is the message of that number; an identifier released by the client is neither in the queue nor on its way; a message is never handed over while an older one that the client has not seen is still in the queue or on its way. It is kept by every operation on the queue, by the arrival of packets, and by the loss of a connection. That nothing is missing at the end: a message is in the queue or was handed over, and by C98 the queue is empty when nothing is on its way.
* **C102** Publishing end to end. Spec/Publisher: a client that publishes by the rules (MQTT 4.3.2, 4.3.3, 4.4) with the packets on their way in both directions; packets arrive with any delay, and what is on its way is lost with the connection. For each packet identifier, the state of the exchange: what the client waits for, what is on its way, and what the session knows of the identifier are in one of seven relations; packets read, packets that arrive, messages published and new connections lead from one to another. Beside it, the messages passed on are aligned with those published: those with QoS 2 that are sent for the first time and not read yet come after the ones passed on; those with QoS 1 that are not passed on yet are waiting and, on a connection that goes on, on their way, in order.
* **C103** From the SUBACK on. Spec/Granted: what a client holds, read off the packets alone: a SUBSCRIBE or UNSUBSCRIBE for a filter makes it uncertain, a SUBACK code that grants it makes it held with that QoS. Held: an invariant of the lone session (the session has every held filter, with the QoS), lifted to the whole broker by C68. Queued: with C56. Taken: everything taken for a client is taken by connections with its client identifier, and as long as no connection is accepted with a new session the identifier stays with the same client (or nobody owns a session with it); so the copy, which by C56 was taken, is seen in the life of the session, and after it was queued by counting. Due and got: the step in which it is taken, and C101.
* **C104** Nothing is left of a client that is gone. World model: the invariant of ownership (C38) for queues, that of C81 for the registry, that of C33 for subscriptions; a table without groups in which nobody is subscribed has no nodes (refinement of C01 and pruning of C03). That leftovers stay: every call on the routing table is made for a client with a session, and an id without session never gets one again. False of the code (two witness runs, in all continuations).
* **C105** A message for a shared subscription goes to exactly one member of the group. World model: one call of routing in terms of the group in the table (invariants of the table that hold after any calls), lifted to every way a message is passed on; the calls of a run in which nobody leaves are calls without rejoining, so the group in the table is the set of those who list the subscription. Expected FALSE for MQTT 3 publishers, whose `send_publish` never looks at groups, and after clean starts: runs as witnesses.
* **C106** With hashing, the messages of a publisher, or of a topic, stay with one member of a shared group. World model and the order of the members in the routing table: calls about other subscriptions, repeated subscriptions of members and unsubscriptions of strangers keep the order. Expected FALSE after members have left and come back (the stale index of C04): a run as witness.
* **C107** The metrics page reports the number of connected clients. World model and the text of the page: invariant that ties the counter to a list of client and connection pairs, one for each connection that is not over, and to the online marks of the registry. Expected FALSE with take-overs and with connections that fail before CONNACK: runs as witnesses, for the second one a family of runs in which the error grows without bound.
* **C108** What a hook asks for when a client connects is done in order and not noticed by the client. `Model/HookConnect.lean`: induction over the actions, each keeps everything of the session but its subscriptions and the copies for others. Expected FALSE for subscriptions in MQTT 3: a retained message as witness.
* **C109** The configurations that the program proposes work as they say. `Model/Defaults.lean`: the proposed settings given to the start of the server (C92) and to the handling of CONNECT (C50); case analysis of both.

## The model

What is modelled, file by file (paths below `/repo/akasa-core/src`, `mqtt/` is `protocols/mqtt/`):

| Model | Code |
|---|---|
| `Topic`, `Route`, `Retain` | splitting and validity of topic names and filters; `mqtt/route.rs` (trie, shared groups); `mqtt/retain.rs` |
| `RouteHeap`, `TableRace` | `mqtt/route.rs` with the `Arc`s of the contents as references, `send_publish` reading them while other connections change the table; the calls of publish and subscribe on both tables, interleaved |
| `Pending` | `mqtt/pending.rs`: outgoing window and queue, packet identifiers, resending, expiry |
| `Session`, `Alias` | session state of both versions, topic aliases of both directions |
| `PublishIn`, `Fanout` | `handle_publish`, `handle_puback/pubrec/pubrel/pubcomp`, `send_publish` (copies per receiver, shared groups, retained store) |
| `PublishOut` | `recv_publish`, `handle_normal`, `handle_pendings` |
| `Subscribe` | `handle_subscribe`, `handle_unsubscribe`, retained messages on SUBSCRIBE |
| `Online` | `handle_packet`, size limit, what the online loop does after a packet, DISCONNECT |
| `Transfer` | `online_loop.rs:462-564`: broadcasting with sinks, one publisher, inboxes with arbitrary readiness |
| `Write` | `online_loop.rs`: write buffer against an arbitrary socket |
| `OnlineLoop` | `online_loop.rs`: the whole `poll` of the task of a connection, with the wake-ups it registers: hooks that answer late, hand-over, reading, control, messages, writing, flushing, passing on, closing |
| `KeepAlive` | `mqtt/common.rs` timer task, arbitrary packet schedule and lateness |
| `Registry` | `state.rs`: `add_client`, `remove_client`, `offline_client` |
| `World` | all connections, offline sessions, channels, take-over, wills, timers, as one transition system; a connection reads nothing while 10 copies or more wait to be passed on |
| `Connect` | CONNECT/AUTH handshake of both versions in front of `World`, CONNACK, configuration and `is_valid` |
| `Hook` | the hooks for PUBLISH, SUBSCRIBE and UNSUBSCRIBE and the actions they return |
| `ConnHook` | the hooks before a connection, after a connection and after a disconnect, in the whole broker: `v3/message.rs:130-178, 645-702`, `v5/message.rs:174-306, 969-1031` |
| `HookConnect` | what the hook after a connection asks for and what is sent before the online loop: `v3/message.rs:143-150, 665-684`, `v5/message.rs:271-278, 994-1013` |
| `DefaultHook` | the hook of the program, `akasa/src/default_hook.rs` |
| `Defaults` | the configurations that the program prints, `akasa-core/src/config.rs` |
| `Auth`, `Scram` | `auth.rs`, the password commands of `akasa/src/main.rs`; `scram/` server and client |
| `Start` | the command `start`: `akasa/src/main.rs:102-126`, `server/rt.rs`, `server/mod.rs` `build_tls_context`, the loop of a listener and of the HTTP listener |
| `Accept` | `server/mod.rs` `handle_accept`: layers of a listener, time limit, first packet, the waits of the CONNECT and AUTH handshake; `server/rt.rs`: what a listener is configured with |
| `Watch` | `common.rs` `start_keep_alive_timer` in the whole broker: time, the timer tasks of all connections, `last_packet_time` |
| `Proxy`, `WebSocket` | `server/proxy.rs`; `server/mod.rs` WebSocket wrapper |

Simplifications (also in the comments of the definitions):

* A handler is one step in all models but `RouteHeap` and `TableRace`. In the code the tables are locked per call, so handlers of different connections can interleave between two calls of one handler. What that means for a publish against subscriptions and for the two tables is C79 and C80; other interleavings inside handlers (registry against tables, for instance) are outside the model.
* Numbers are unbounded where the code has u32/u64/usize and no arithmetic wraps in the modelled functions; packet identifiers are 16 bit as in the code. Subtractions that would underflow in the code are noted at the definitions.
* Hash maps are association lists; their iteration order is not relied on in the statements (results up to permutation, or per receiver). Where the order decides in the code it is an input of the model (`Env`).
* Time, randomness, readiness of sockets and sinks, wake-up times, scheduling are arbitrary inputs; no fairness is assumed unless a theorem says so.
* `World` serves one packet or message per step and does not contain the write queue; `OnlineLoop` models the poll function itself, and C78 shows that what it does to a session is such a sequence of steps. Reading in `OnlineLoop` is by whole packets: the partial state of the decoder belongs to `mqtt_proto`.
* The control channel (capacity 1) is an unbounded queue, inboxes are bounded as in the code; `Instant`s of two connections differ.
* Panics are explicit (`none`, `Out.panic`).

Not modelled: the byte encoding of MQTT packets (crate `mqtt_proto`; sizes are parameters or computed by `Spec/Size.lean`), TLS and the HTTP upgrade of WebSockets (arbitrary results in `Accept`; in `Start` a handshake depends on the certificate shown), sockets (their failures are events in `Start`), logging, reading configuration files (only `is_valid`), cluster code, the parsing of the `akasa` command line, the HTTP listener except for the text of its metrics page.

## Trusted base

* Lean's kernel. No own axioms, no `sorry`, no `native_decide`, no `bv_decide`; axioms per theorem below.
* The reading of the Rust source into the model, cited per definition.
* Behaviour of external code, as stated beside the parameters that stand for it:
  * `mqtt_proto`: packets are decoded as the fields of `InPkt`, `Publish`, ...; `TopicName`/`TopicFilter` validity; `Pid` arithmetic (1..65535, wrapping); `encode_len`.
  * `hashbrown`, `dashmap`: finite maps. `flume`: FIFO channels with bounded capacity; a `SendSink` holds at most one message and passes it on or reports a lost receiver.
  * `tokio`: timers do not fire early; `read_exact`; `poll_write` writes a prefix. `tungstenite`: an arbitrary source and sink of messages.
  * `ring` (SHA-2, HMAC, PBKDF2), `base64`, UTF-8 decoding, crc32c: arbitrary functions, with `decode (encode b) = some b` for base64 where a theorem needs it and nothing else. No cryptographic strength is claimed.
  * `rustls`: without a verifier no certificate is asked for; with one, a certificate shown must pass it, and none is accepted only with `allow_unauthenticated`; a verifier cannot be built without roots.
  * `uuid`: that made identifiers are new is not proved.

### Axioms each theorem of the manifest depends on

* **no axioms** (4): C34_copy_v3_partial, C39_noneExpired_v3, C42_zero, C87_codes
* **`propext`** (12): C09_full_refused, C09_room_accepted, C14_accepted, C30_wire, C34_copy_v5, Auth.C47_cut, Scram.C49_client_panic, C51_codes, C52_qos, Ws.C53_unexpected, Ws.C53_closed, Ws.C53_shutdown
* **`propext`, `Quot.sound`** (114): C01_lookup_sound, C01_lookup_complete, C01_lookup_once, C01_no_panic, C01_no_panic_plain, C02_dollar_not_routed, C02_literal_dollar_routed, C02_dollar_not_retained, C02_literal_dollar_retained, C03_unsubscribe_precise, C03_no_leak, C03_empty, C04_group_selects_member_partial, C04_group_found_partial, C05_leave_precise_partial, C06_retained_latest, C06_other_topics, C07_retained_lookup, C07_agrees_with_routing, C08_no_leak, C08_empty, C09_bounded, C10_false, C11_dup, C12_released_after_pubrec, C12_nothing_after_puback, C12_nothing_after_pubcomp, C13_pass_order, C14_kept_v5_partial, C14_released_kept, C14_false, C15_not_before_timeout, C17_false, C18_expiry, C18_no_expiry, C24_decodes, C24_alias_in_range, C25_publish_answered, C25_pubrec_answered, C25_pubrel_due, C25_reason_partial, C32_identifier_zero_v5, C32_shared_v3, C35_never_reused, C35_inverse, C35_injective, C35_queue, C35_connect, C36_registrations, C36_again, C36_subscriptions, C36_shared_partial, C37_count_partial, C42_kicked, C43_prefix, C43_complete, C43_live, C43_drains, Auth.C47_check_partial, C51_publish_v5, C51_subscribe_v5, C51_unsubscribe_v5, C51_v3, C51_error_v5, C51_after_error, Ws.C53_read, Ws.C53_progress, Ws.C53_write, Ws.C53_pongs, Ws.C53_close, C54_too_large, C54_within_limit, C54_broker, C55_source_v5_partial, C55_source_v3_partial, C56_moves, C56_takes, C69_invisible, C69_shipped, C70_packet_kept, C70_publish, C70_in_order, C70_subscribe_v5_partial, C71_kept, C71_waits, C76_taken, C79_same, C79_reached_v3, C79_only_v3, C79_once_v3, C79_reached_v5, C79_only_v5, C79_once_v5, C79_no_crash_partial, Start.C91_partial, Start.C92_starts, Start.C92_no_panic, Start.C92_exact, Start.C93_apart, Start.C93_returns, Start.C93_stays, Start.C93_once, Start.C93_served_partial, Start.C93_false, Start.C93_http_false, C94_unread, C94_obeys, C96_subscribe, C108_silent, C108_shipped, C108_order, C108_sent_partial, C108_v5, C108_failed
* **`propext`, `Classical.choice`, `Quot.sound`** (348): C04_false, C05_false, C06_by_publish, C68_queue_bounded, C10_receive_maximum_v3, C10_receive_maximum_partial, C10_receive_maximum_no_drops_partial, C11_dup_any, C12_no_publish_after_pubrec, C13_fifo_v3, C13_fifo_v5, C13_fifo_v5_any_clock, C14_kept_v3, C14_kept_once_sent_partial, C15_resent, C15_pubrel_resent, C15_whole_window, C15_broker, C16_drain, C16_empty, C17_range, C17_distinct_no_drops_partial, C17_distinct_first_65535_partial, C18_expired_never_sent, C19_qos2_at_most_once, C68_qos2_once, C20_pubrec_means_routed_partial, C20_false, C21_unreleased_bounded, C21_excess_rejected, C68_qos2_bounded, C22_no_dollar_publish, C22_no_dollar_retained, C22_all, C22_store, C23_alias_resolves, C23_bad_alias_rejected, C24_source, C25_pubrel_answered, C25_reason_false, C26_receivers_v5_partial, C26_plain_v5, C26_plain_sound_v5, C26_receivers_v3, C26_nothing_else, C26_shared_false, C27_one_copy_partial, C28_no_echo_live, C28_no_echo_retained, C29_live, C29_offline, C29_retained, C30_dropped, C30_identifiers, C31_false, C31_first_filter_partial, C31_dropped, C32_suback_v5, C32_suback_v3, C32_effect, C32_refused, C33_listed, C33_calls_partial, C33_agree_partial, C33_dropped, C33_false, C33_unsuback_v5, C33_unsuback_v3, C34_retained_v5, C34_v3_false, C34_retained_v3_partial, C36_shared_false, C37_false, C37_at_least, C38_one_owner, C38_identifier, C38_stopped, C38_handover, C39_present, C39_resumed, C39_new, C40_stale, C40_origin, C40_v5_only, C40_fire, C40_offline_end, C40_will, C40_expiry_runs, C41_at_most_once, C41_never_after_disconnect, C41_published, C41_at_once, C41_later, C41_delay_runs, C41_with_will_false, C41_takeover_false, C42_only_silent, C42_live, C42_silent, C42_broker, C42_zero_broker, C44_no_panic, C44_count, C44_exactly_once, C44_at_most_once, C44_delivered, Proxy.C45_header, Proxy.C45_local, Proxy.C45_unambiguous, Proxy.C45_no_crash_partial, Proxy.C45_false, Proxy.C46_refused, Proxy.C46_tls, Proxy.C46_plain, Auth.C47_inserted, Auth.C47_removed, Auth.C47_false, Auth.C48_roundtrip_partial, Auth.C48_reload, Auth.C48_false, Scram.C49_first, Scram.C49_exact, Scram.C49_one_attempt, Scram.C49_honest_partial, Scram.C49_comma_false, Scram.C49_y_false, Scram.C49_client_checks, C50_password, C50_all, C50_scram, C50_mechanism, C50_refused, C50_admitted, C52_ranges_partial, C52_false, Ws.C53_eof, C55_partial, C55_bounded_partial, C55_ids_false, C55_alias_false, C55_resume_false, C55_source_v5_false, C55_source_v3_false, C56_queued, C56_order, C56_conserved_partial, C56_drained_partial, C56_dropped, C56_false, C57_step, C57_run, C57_bounded, C57_fifo_v3, C57_fifo_v5, C57_window_v3, C57_origin, C58_live_v5, C58_retained_v3, C58_retained_v5_false, C58_live_v3_false, C59_false, C59_finish_partial, C60_refused, C60_accepted, C60_only, C61_error_partial, C61_false, C62_known, C62_range_partial, C62_range_false, C63_told, C63_kept_partial, C63_false, C64_identifier, C64_told, C64_required, C64_length, C65_no_effect, C66_once, C66_first, C67_latest, C67_lookup, C67_known, C68_alone, C68_window_v3, C68_order_v3, C68_order_v5, C70_subscribe_v3_false, C71_removed, C71_interval, C71_only, C71_stays, C72_inbox, C72_reads, C72_bounded, C73_false, C73_expiry_false, C73_no_panic_partial, C73_registry, C74_request, C74_now, C74_alias, C74_alias_all, C74_window_partial, C74_told, C75_copies, C75_sent, C75_v3, C75_v5, C75_wills, C75_all, C76_write_false, C76_flush_false, C76_attended_partial, C76_waits, C76_hook, C77_false, C77_queue, C77_window_partial, C78_wire, C78_complete, C78_closed, C78_session, C79_false, C80_no_gap, C80_this, C81_failed, C81_failed_next, C81_jam, C81_false, C81_self_false, C81_new, C81_partial, C82_asked, C82_forgotten, C82_false, C82_partial, Accept.C83_in_time_partial, Accept.C83_websocket_partial, Accept.C83_false, Accept.C83_ws_false, Accept.C83_not_early, Accept.C84_layers, Accept.C84_address, Accept.C84_refused, Accept.C85_single_partial, Accept.C85_several_false, Accept.C85_none_false, C86_blame, C86_interval, C86_partial, C86_false, C87_asked, C87_gate, C87_partial, C87_false, C88_order, C88_partial, C88_taken, C88_switch, C88_silent, C88_false, C88_unpaired_false, C89_partial, C89_locked_connect, C89_locked_disconnect, C89_false, C90_transparent, C90_reaches, C90_shipped, Start.C91_connected_partial, Start.C91_false, C94_partial, C94_delivers_partial, C94_waits, C94_false, C95_truth, C95_told, C95_partial, C95_takeover_false, C95_silent_false, C95_foreign_false, C95_hook_false, C96_sent, C96_will_partial, C96_qos_false, C96_retain_false, C97_held, C97_sent, C97_now, C98_settled_v3, C98_settled_v5_partial, C98_all, C98_false, C99_first_partial, C99_roomy_partial, C99_broker_partial, C99_false, C100_interval_partial, C100_retained_false, C100_v3_false, C100_waiting_false, C101_at_most_once_partial, C101_exactly_once_partial, C101_broker_partial, C101_broker_all_partial, C101_false, C102_at_most_once, C102_at_least_once, C102_completed, C102_exactly_once_partial, C102_exactly_once_false, C102_stuck, C102_repetition_refused, C102_broker, C103_held, C103_queued, C103_taken_partial, C103_due_partial, C103_got_partial, C103_false, C104_queues, C104_registered_partial, C104_subscribed_partial, C104_bare_partial, C104_stays, C104_dropped, C104_false, C104_registered_false, C104_grows_false, C104_pile_false, C104_left_false, C105_once, C105_v3, C105_one_partial, C105_v3_false, C105_left_false, C106_partial, C106_false, C107_partial, C107_least, C107_takeover_false, C107_drift_false, C108_false, Start.C109_default, Start.C109_closed, Start.C109_anonymous, Start.C109_limits

## Claims found false of the code

Each is proved on the model by a concrete run (`decide`), with a `_partial` theorem for what remains true.

| Theorem | What happens |
|---|---|
| `C04_false`, `C05_false`, `C25_reason_false`, `C26_shared_false`, `C36_shared_false` | `SharedClients::remove` of the last member leaves a stale index entry: a client that leaves a shared group twice (an expiring MQTT 5 session is removed twice) removes another member |
| `C10_false`, `C17_false` | refused messages consume packet identifiers, so that after 65534 refusals two pending messages have the same one |
| `C14_false` | after a reconnect an already transmitted MQTT 5 message is dropped as expired |
| `C20_false` | a first QoS 2 PUBLISH with DUP set gets PUBREC but is not passed on |
| `C31_false` | an MQTT 3 receiver of a message from an MQTT 5 publisher checks only the first matching filter |
| `C33_false` | a clean start or change of protocol level leaves the old session's subscriptions in the routing table |
| `C34_v3_false` | MQTT 3: a retained message with QoS above the granted one is not delivered on SUBSCRIBE |
| `C37_false` | taking over a connected client counts it twice |
| `C41_with_will_false`, `C41_takeover_false` | DISCONNECT with reason 0x04 and session expiry 0 does not publish the will; neither does a connection that is taken over |
| `C45_false` | a PROXY header with unspecified family or transport crashes the task (`unreachable!()`) |
| `C47_false` | a truncated PBKDF2 hash in the password file accepts passwords it should not |
| `C48_false` | user names with line breaks or leading blanks do not survive the password file |
| `Scram.C49_comma_false`, `C49_y_false`, `C49_client_panic` | user names with a comma and clients with flag `y` cannot authenticate; the client can be made to panic by the server |
| `C52_false` | `max_inflight_server = 0` is valid and announced |
| `C55_ids_false`, `C55_alias_false`, `C55_resume_false`, `C55_source_v5_false`, `C55_source_v3_false` | subscription identifiers and aliases are added after the size check; no check after a reconnect; the recorded size of a message is too small for topics given by alias and at a length boundary for MQTT 3 publishers |
| `C56_false`, `C59_false` | copies held for others are dropped when a connection is taken over, or ends while a sink is full |
| `C58_retained_v5_false`, `C58_live_v3_false` | RETAIN is clear on retained messages sent to MQTT 5 clients and may be set on live messages to MQTT 3 clients |
| `C61_false` | a CONNACK that refuses the will may report a present session |
| `C62_range_false` | a configuration with minimal above maximal keep-alive is valid |
| `C63_false` | the expiry interval in DISCONNECT is not limited by the maximum |
| `C70_subscribe_v3_false` | an MQTT 3 subscription made by a hook queues retained messages |
| `C76_write_false`, `C76_flush_false` | after a write that takes only a part of the bytes nothing wakes the task for the rest; a flush that answers `Pending` is not repeated when the task is woken |
| `C77_false` | the answer to SUBSCRIBE puts all matching retained messages into the write queue at once |
| `C79_false` | a publish crashes (`unwrap` of a missing filter) when the last subscriber of a matching filter leaves between lookup and reading |
| `C81_false`, `C81_failed`, `C81_failed_next` | a connection that fails after its client was registered and before CONNACK is written (lost, or MQTT 5 will refused) locks the client identifier out until the broker is restarted |
| `C81_self_false`, `C81_jam` | a session whose connection is over waits forever for room in its own full inbox (or in those of sessions that wait for it); its client identifier is locked out |
| `C82_false` | a CONNECT that arrives while the session of the same client identifier is being removed is never answered and never closed |
| `Accept.C83_false`, `Accept.C83_ws_false` | the WebSocket handshake has no time limit: a client that opens a connection and sends nothing keeps it for ever |
| `Accept.C85_several_false` | a WebSocket client that offers `mqtt` and another subprotocol is refused |
| `Accept.C85_none_false` | a WebSocket client that offers no subprotocol is let in |
| `C86_false` | the keep-alive timer of a connection goes on after its end: a client that is back within two intervals of its last packet is disconnected for the silence of its former connection |
| `C87_false` | An MQTT 3 client that the hook before a connection refuses gets no CONNACK; the code the hook chose is only logged |
| `C88_false` | The hook after a connection is called if the hook *before* a connection is enabled; its own switch is not read |
| `C88_unpaired_false` | If writing what follows CONNACK fails, the hook after a connection was called and the hook after a disconnect never is |
| `C89_false` | A failing hook after a connection or after a disconnect ends the task with `?`: the client stays registered without receivers, so its identifier cannot be used again, and the will is not published |
| `C91_false` | `fail_if_no_peer_cert: true` with `verify_peer: false` is accepted as a configuration and demands nothing: clients without a certificate are let through (`server/mod.rs:236, 254, 277-279`). |
| `C93_false` | An error of `accept` (for example, no file descriptor is left) ends `listen` with `?`: the socket is closed with all connections that wait in its queue, and it is opened again after a second (`server/rt.rs:126-130, 201`). |
| `C93_http_false` | If the address of the HTTP listener is in use at the start, it is not tried again, other than those for clients; a server with only HTTP then ends without an error (`server/rt.rs:142-156`). |
| `C94_false`, `C94_waits` | A client that stops reading blocks every client that publishes to it: when its inbox (8) is full and ten more copies wait, the connection of the publisher is not read any more, so that other receivers get nothing from it, and PINGREQ is not answered either (`online_loop.rs:238-249, 461-570`). |
| `C95_takeover_false` | A client whose session is taken over by another connection is not sent DISCONNECT "session taken over" (0x8E): its connection is closed without a packet (`v5/message.rs` `handle_control`) |
| `C95_silent_false` | A client that was silent for too long is not sent DISCONNECT "keep alive timeout" (0x8D): its connection is closed without a packet |
| `C95_foreign_false` | A second CONNECT (or AUTH, or a packet only a broker sends) closes the connection of an MQTT 5 client without DISCONNECT "protocol error" (`v5/message.rs` `handle_packet`, last arm) |
| `C95_hook_false` | A failing hook closes the connection of an MQTT 5 client without DISCONNECT |
| `C96_qos_false` | An MQTT 5 client that publishes with a QoS higher than the announced maximum is not refused with 0x9B: the message is accepted and passed on (`v5/packet/publish.rs` has no check) |
| `C96_retain_false` | With `retain_available: false` a PUBLISH with RETAIN is not refused with 0x9A: it is stored, and MQTT 3 clients that subscribe later are sent it (`v5/packet/publish.rs:314-342`, `v3/packet/subscribe.rs:37-69`) |
| `C98_false` | A sending pass to an MQTT 5 client that removes an expired message from the queue does not send the message that comes into the window instead: it lies there although the client has nothing to answer, until some other packet or message of this client causes the next pass (`v5/packet/common.rs:233-239`) |
| `C99_false` | Consequence of `C17_false` that a client sees: after 65535 messages, most of them dropped because its queue was full, it gets another message with the identifier of a message that it has not answered yet, not marked as repeated |
| `C100_retained_false` | A retained message has no time of publication (`retain.rs:25-33`): it is sent to new subscribers after its expiry interval has passed, and again with the full interval |
| `C100_v3_false` | Messages with an expiry interval never expire in the queue of an MQTT 3 session (`v3/packet/common.rs`) |
| `C100_waiting_false` | The time a copy waits in the sender's task and in the inbox of the receiver is not counted: `added_at` is the time when the receiver's session takes it (`pending.rs:29-47`) |
| `C101_false` | Consequence of `C17_false` for the application of a client that follows the protocol: after 65535 messages, most of them dropped because its queue was full, a new message with QoS 2 is sent with the identifier of an older one that is not released yet; the client takes it for a repetition and answers it, and the message is lost |
| `C102_exactly_once_false` | Consequence of `C20_false` for a client that follows the protocol (both versions): the first transmission of a message with QoS 2 is lost with the connection; sent again with the DUP flag it is answered by PUBREC and PUBCOMP and completed, but never passed on: the message is lost |
| `C102_stuck` | MQTT 3: the broker forgets the packet identifier when it sends PUBCOMP. If that is lost with the connection, the client has to send PUBREL again on every further connection, and each time the broker ends the connection with an error; the message is never completed and the client cannot get past it |
| `C102_repetition_refused` | The hash by which repetitions are recognized is that of the whole packet. If it covers the DUP flag (a derived `Hash` does; the source of `mqtt-proto` is not available here), the repetition of a message that was answered is refused: MQTT 3 ends the connection, MQTT 5 answers "packet identifier in use" and the client gives up the exchange while the broker keeps the identifier |
| `C103_false` | An MQTT 3 client comes back with clean session 1 and subscribes to a filter. The filters of its former session are still in the routing table (`C33_false`). If a message matches one of them and the new one, and the old one is listed first, an MQTT 3 session looks at the old one only (`C31_false`) and drops the message: a connected client with a granted QoS 1 subscription never gets it |
| `C104_false`, `C104_stays`, `C33_dropped`, `C104_dropped`, `C104_pile_false` | the subscriptions of a session that a new connection drops are never removed from the routing table; once the client is gone nothing can remove them (memory leak that any client can repeat) |
| `C104_registered_false`, `C104_grows_false` | a client whose connection fails before its CONNACK stays registered for ever; for every `n`, `n` such clients leave `n` entries although nobody has a session |
| `C105_v3_false` (for all runs: `C105_v3`) | a message published by an MQTT 3.1 or 3.1.1 client is never passed on to shared subscriptions: `send_publish` of v3 does not look at the groups |
| `C105_left_false` | a member of a shared group that reconnects with a clean session stays in the group without a subscription: the messages for which it is picked reach nobody |
| `C106_false` | after members of a shared group have left and come back, a member that never left is forgotten until it subscribes again; the hash modes then send messages with the same topic to different members though the subscribers are the same |
| `C107_takeover_false`, `C107_drift_false` | the metrics page still reports a client that is gone if it has taken its own session over; every connection attempt of a client whose first connection failed before CONNACK adds one online client for good |
| `C108_false` | an MQTT 3 client for which the hook subscribes when it connects is sent retained messages, although the action is documented not to send them |

## Mutation tests

`seeded/LOG.jsonl` lists wrong variants of the model, the theorems that no longer prove for each, and the theorems that were tightened because a variant survived.
